import Verif.Json
import Verif.Logic

/-! # Lemmas about the JSON tokenizer -/

namespace Armas

/-- The cells of a buffer. -/
def bufS (b len : Nat) : Set Nat := {p | b ≤ p ∧ p < b + len}

theorem mem_bufS {b len k : Nat} (h : k < len) : b + k ∈ bufS b len := ⟨by omega, by omega⟩

/-- The characters `txt` are stored from cell `b`. -/
def Text (m : Mem Int) (b : Nat) (txt : List Int) : Prop :=
  ∀ i, (h : i < txt.length) → m (b + i) = some txt[i]

theorem Text.nil (m : Mem Int) (b : Nat) : Text m b [] := fun i h => by simp at h

theorem Text.push {m : Mem Int} {b : Nat} {txt : List Int} (h : Text m b txt) {k : Nat}
    (hk : txt.length = k) (v : Int) : Text (m.set (b + k) v) b (txt ++ [v]) := by
  subst hk
  intro i hi
  rw [List.length_append, List.length_singleton] at hi
  by_cases e : i = txt.length
  · subst e; simp
  · have hi' : i < txt.length := by omega
    rw [Mem.set_ne _ _ (by omega), h i hi', List.getElem_append_left hi']

theorem Text.set {m : Mem Int} {b : Nat} {txt : List Int} (h : Text m b txt) {k : Nat}
    (hk : txt.length ≤ k) (v : Int) : Text (m.set (b + k) v) b txt := fun i hi => by
  rw [Mem.set_ne _ _ (by omega), h i hi]

theorem cstr_text {txt : List Int} : ∀ {m : Mem Int} {b n : Nat}, Text m b txt →
    m (b + txt.length) = some 0 → (∀ c ∈ txt, c ≠ 0) → txt.length < n → cstr m b n = .ok txt := by
  induction txt with
  | nil =>
    intro m b n _ h0 _ hn
    obtain ⟨n, rfl⟩ : ∃ k, n = k + 1 := ⟨n - 1, by simp at hn; omega⟩
    simp only [List.length_nil, Nat.add_zero] at h0
    simp [cstr, rd_ok h0]
  | cons c r ih =>
    intro m b n ht h0 hz hn
    obtain ⟨n, rfl⟩ : ∃ k, n = k + 1 := ⟨n - 1, by simp at hn; omega⟩
    have hc : m b = some c := by
      have := ht 0 (by simp)
      simpa using this
    have hr : cstr m (b + 1) n = .ok r := by
      apply ih
      · intro i hi
        have := ht (i + 1) (by simp; omega)
        rw [show b + 1 + i = b + (i + 1) by omega, this]; simp
      · rw [← h0]; congr 1; simp; omega
      · intro c hc; exact hz c (by simp [hc])
      · simp at hn; omega
    simp [cstr, rd_ok hc, hz c (by simp), hr]

/-- States in which the buffer holds the text of a number. -/
def JSt.num (s : JSt) : Prop := s = .number ∨ s = .exp ∨ s = .exp1

/-- States in which nothing has been stored. -/
def JSt.quiet (s : JSt) : Prop :=
  s = .value ∨ s = .true0 ∨ s = .true1 ∨ s = .true2 ∨ s = .false0 ∨ s = .false1 ∨ s = .false2 ∨
  s = .false3 ∨ s = .null0 ∨ s = .null1 ∨ s = .null2

/-- Tokens without text: single characters and literals. -/
def JTok.plain (t : JTok) : Prop := (∃ c, t = .ch c) ∨ t = .tru ∨ t = .fls ∨ t = .null

/-- What holds whenever the tokenizer reads the next character; `pre` is the input consumed. -/
structure TInv (m : Mem Int) (b len : Nat) (pre : List Int) (s : TokS) : Prop where
  frame : Frame (bufS b len) m s.mem
  alloc : ∀ k, k < len → ∃ v, s.mem (b + k) = some v
  pos : (s.st = .value ∧ s.k = 0) ∨ (s.st ≠ .value ∧ s.k + 1 < len)
  lit2 : s.st = .hex2 → s.lit.length = 1
  lit3 : s.st = .hex3 → s.lit.length = 2
  lit4 : s.st = .hex4 → s.lit.length = 3
  num : s.st.num → ∃ p0 txt, pre = p0 ++ txt ∧ txt.length = s.k ∧ Text s.mem b txt ∧
    ∀ c ∈ txt, 0 < c ∧ c < 128
  same : s.st.quiet → s.mem = m

/-- What one pass of the loop gives: all of `TInv` but the room for one more character. -/
structure TGo (m : Mem Int) (b len : Nat) (pre : List Int) (s : TokS) : Prop where
  frame : Frame (bufS b len) m s.mem
  alloc : ∀ k, k < len → ∃ v, s.mem (b + k) = some v
  val : s.st = .value → s.k = 0
  lit2 : s.st = .hex2 → s.lit.length = 1
  lit3 : s.st = .hex3 → s.lit.length = 2
  lit4 : s.st = .hex4 → s.lit.length = 3
  num : s.st.num → ∃ p0 txt, pre = p0 ++ txt ∧ txt.length = s.k ∧ Text s.mem b txt ∧
    ∀ c ∈ txt, 0 < c ∧ c < 128
  same : s.st.quiet → s.mem = m

/-- A token that ends in the buffer is NUL terminated; for a number the buffer holds the last
characters consumed. -/
structure TDone (m : Mem Int) (b len : Nat) (pre : List Int) (t : JTok) (m' : Mem Int) : Prop where
  frame : Frame (bufS b len) m m'
  alloc : ∀ k, k < len → ∃ v, m' (b + k) = some v
  str : t = .string → ∃ n, n + 2 ≤ len ∧ m' (b + n) = some 0
  num : t = .number → ∃ p0 txt, pre = p0 ++ txt ∧ txt.length + 2 ≤ len ∧ Text m' b txt ∧
    m' (b + txt.length) = some 0 ∧ ∀ c ∈ txt, 0 < c ∧ c < 128
  same : t.plain → m' = m

variable {m : Mem Int} {b len : Nat} {pre : List Int} {s : TokS} {c : Int}

/-- Postcondition of a pass. -/
def TPost (m : Mem Int) (b len : Nat) (pre : List Int) (c : Int) : TokOut → Prop
  | .done t u m' => TDone m b len pre t m' ∧ (u = true → t = .number ∧ pre ≠ []) ∧
      (t = .number → u = true)
  | .go s' => TGo m b len (pre ++ [c]) s'

theorem set_alloc {m : Mem Int} {b len : Nat} (h : ∀ k, k < len → ∃ v, m (b + k) = some v) (p : Nat) (v : Int) :
    ∀ k, k < len → ∃ w, m.set p v (b + k) = some w := fun k hk => by
  by_cases e : b + k = p
  · exact ⟨v, by rw [e]; simp⟩
  · rw [Mem.set_ne _ _ e]; exact h k hk

theorem tokRet_post (h : TInv m b len pre s) {t : JTok} (ht : t ≠ .string) (ht' : t ≠ .number)
    (hp : t.plain → s.st.quiet) :
    Runs (tokRet s t) (TPost m b len pre c) :=
  Runs.ok ⟨⟨h.frame, h.alloc, fun e => absurd e ht, fun e => absurd e ht', fun e => h.same (hp e)⟩, by simp,
    fun e => absurd e ht'⟩

theorem tokGo_post (h : TInv m b len pre s) {st' : JSt} (hn : ¬ st'.num) (h2 : st' ≠ .hex2)
    (h3 : st' ≠ .hex3) (h4 : st' ≠ .hex4) (hv : st' = .value → s.k = 0) (hq : st'.quiet → s.st.quiet) :
    Runs (tokGo s st') (TPost m b len pre c) :=
  Runs.ok ⟨h.frame, h.alloc, hv, fun e => absurd e h2, fun e => absurd e h3,
    fun e => absurd e h4, fun e => absurd e hn, fun e => h.same (hq e)⟩

theorem TInv.lt (h : TInv m b len pre s) (hl : 1 ≤ len) : s.k < len := by
  rcases h.pos with ⟨-, h⟩ | ⟨-, h⟩ <;> omega

theorem tokPut_post (h : TInv m b len pre s) (hl : 1 ≤ len) {st' : JSt} {v : Int}
    (hq : ¬ st'.quiet) (h2 : st' ≠ .hex2) (h3 : st' ≠ .hex3) (h4 : st' ≠ .hex4)
    (hn : st'.num → (s.st.num ∨ s.st = .value) ∧ 0 < v ∧ v < 128 ∧ v = c) :
    Runs (tokPut b s v st') (TPost m b len pre c) := by
  have hk := h.lt hl
  obtain ⟨w, hw⟩ := h.alloc s.k hk
  refine Runs.wr_bind hw (Runs.ok ⟨h.frame.trans (Frame.set (mem_bufS hk) _),
    set_alloc h.alloc _ _, fun e => absurd (Or.inl e) hq, fun e => absurd e h2, fun e => absurd e h3,
    fun e => absurd e h4, fun e => ?_, fun e => absurd e hq⟩)
  obtain ⟨hs, v0, v1, rfl⟩ := hn e
  have ev : toChar v = v := by simp [toChar]; omega
  rw [ev]
  rcases hs with hs | hs
  · obtain ⟨p0, txt, rfl, hlen, ht, hc⟩ := h.num hs
    refine ⟨p0, txt ++ [v], by simp, by simp [hlen], ht.push hlen v, ?_⟩
    intro c hc'
    rcases List.mem_append.1 hc' with h1 | h1
    · exact hc c h1
    · simp at h1; subst h1; exact ⟨v0, v1⟩
  · have k0 : s.k = 0 := by
      rcases h.pos with ⟨-, h⟩ | ⟨h, -⟩
      · exact h
      · exact absurd hs h
    refine ⟨pre, [v], rfl, by simp [k0], ?_, by simp; omega⟩
    have := (Text.nil s.mem b).push (k := s.k) (by simp [k0]) v
    simpa using this

theorem tokEnd_string (h : TInv m b len pre s) (hl : 1 ≤ len) (hs : s.st = .string) :
    Runs (tokEnd b s .string false) (TPost m b len pre c) := by
  have hk := h.lt hl
  obtain ⟨w, hw⟩ := h.alloc s.k hk
  refine Runs.wr_bind hw (Runs.ok ⟨⟨h.frame.trans (Frame.set (mem_bufS hk) _),
    set_alloc h.alloc _ _, fun _ => ⟨s.k, ?_, by simp⟩, by simp, by simp [JTok.plain]⟩, by simp, by simp⟩)
  rcases h.pos with ⟨h, -⟩ | ⟨-, h⟩
  · rw [hs] at h; cases h
  · omega

theorem tokEnd_number (h : TInv m b len pre s) (hl : 1 ≤ len) (hs : s.st.num)
    (hp : pre ≠ []) : Runs (tokEnd b s .number true) (TPost m b len pre c) := by
  have hk := h.lt hl
  obtain ⟨w, hw⟩ := h.alloc s.k hk
  obtain ⟨p0, txt, e, hlen, ht, hc⟩ := h.num hs
  refine Runs.wr_bind hw (Runs.ok ⟨⟨h.frame.trans (Frame.set (mem_bufS hk) _),
    set_alloc h.alloc _ _, by simp, fun _ => ⟨p0, txt, e, ?_, ht.set (by omega) 0, by simp [hlen],
      hc⟩, by simp [JTok.plain]⟩, by simp [hp], by simp⟩)
  rcases h.pos with ⟨h, -⟩ | ⟨-, h⟩
  · rcases hs with hs | hs | hs <;> (rw [hs] at h; cases h)
  · omega

theorem digitsVal_append (l : List Int) (c : Int) : digitsVal (l ++ [c]) = 10 * digitsVal l + (c - 48) := by
  simp [digitsVal, List.foldl_append]

theorem isDigit_iff {c : Int} : isDigit c = true ↔ 48 ≤ c ∧ c ≤ 57 := by simp [isDigit]

theorem digitsVal_bound (l : List Int) (h : ∀ c ∈ l, isDigit c = true) :
    0 ≤ digitsVal l ∧ digitsVal l < 10 ^ l.length := by
  induction l using List.reverseRecOn with
  | nil => simp [digitsVal]
  | append_singleton l c ih =>
    have h1 := ih (fun c hc => h c (by simp [hc]))
    have h2 := isDigit_iff.1 (h c (by simp))
    rw [digitsVal_append, List.length_append, List.length_singleton, pow_succ]
    constructor <;> linarith [h1.1, h1.2, h2.1, h2.2]

theorem all_takeWhile {p : Int → Bool} (l : List Int) : ∀ c ∈ l.takeWhile p, p c = true :=
  fun _ hc => by
    have := List.all_takeWhile (p := p) (l := l)
    exact List.all_eq_true.1 this _ hc

/-- `atoi` of a string whose runs of digits have at most nine digits. -/
theorem atoi_ok {l : List Int} (h : ∀ d, d <:+: l → (∀ c ∈ d, isDigit c = true) → d.length ≤ 9) :
    atoi l = .ok (atoiVal l) := by
  have key : ∀ r, r <:+: l → 0 ≤ digitsVal (r.takeWhile isDigit) ∧
      digitsVal (r.takeWhile isDigit) < 1000000000 := by
    intro r hr
    have h1 := h (r.takeWhile isDigit) ((List.takeWhile_prefix _).isInfix.trans hr) (all_takeWhile r)
    have h2 := digitsVal_bound _ (all_takeWhile (p := isDigit) r)
    refine ⟨h2.1, lt_of_lt_of_le h2.2 ?_⟩
    calc (10 : Int) ^ (r.takeWhile isDigit).length ≤ 10 ^ 9 := pow_le_pow_right₀ (by norm_num) h1
      _ = 1000000000 := by norm_num
  have hb : -2147483648 ≤ atoiVal l ∧ atoiVal l ≤ 2147483647 := by
    unfold atoiVal
    have hd := List.dropWhile_suffix (l := l) (fun c => decide (c = 32 ∨ (9 ≤ c ∧ c ≤ 13)))
    revert hd
    generalize l.dropWhile _ = d
    intro hd
    cases d with
    | nil => simp
    | cons c r =>
      have k1 := key (c :: r) hd.isInfix
      have k2 := key r ((List.suffix_cons c r).isInfix.trans hd.isInfix)
      dsimp only
      split
      · omega
      · split <;> omega
  unfold atoi
  rw [if_pos hb]

theorem atoi_short {l : List Int} (h : l.length ≤ 9) : atoi l = .ok (atoiVal l) :=
  atoi_ok fun _ hd _ => hd.length_le.trans h

theorem num_pre (h : TInv m b len pre s) (hs : s.st.num) (hk : 0 < s.k) : pre ≠ [] := by
  obtain ⟨p0, txt, e, hlen, -, -⟩ := h.num hs
  intro e'
  rw [e'] at e
  have := (List.append_eq_nil_iff.1 e.symm).2
  rw [this] at hlen
  simp at hlen; omega

theorem tokStep_post (h : TInv m b len pre s) (hl : 1 ≤ len) (h0 : 0 ≤ c)
    (hp : s.st.num → pre ≠ []) :
    Runs (tokStep b s c) (TPost m b len pre c) := by
  have dg : isDigit c = true → 0 < c ∧ c < 128 := fun e => by
    have := isDigit_iff.1 e; omega
  unfold tokStep
  split
  · rename_i e
    split
    · exact tokEnd_string h hl e
    · split
      · exact tokGo_post h (by simp [JSt.num]) (by simp) (by simp) (by simp) (by simp) (by simp [JSt.quiet, *])
      · exact tokPut_post h hl (by simp [JSt.quiet]) (by simp) (by simp) (by simp) (by simp [JSt.num])
  · have P := fun v => tokPut_post (c := c) h hl (st' := .string) (v := v) (by simp [JSt.quiet]) (by simp) (by simp) (by simp)
      (by simp [JSt.num])
    split
    · exact P _
    split
    · exact P _
    split
    · exact P _
    split
    · exact P _
    split
    · exact P _
    split
    · exact tokGo_post h (by simp [JSt.num]) (by simp) (by simp) (by simp) (by simp) (by simp [JSt.quiet, *])
    · exact tokRet_post h (by simp) (by simp) (by simp [JTok.plain, JSt.quiet, *])
  · split
    · exact Runs.ok ⟨h.frame, h.alloc, by simp, by simp, by simp, by simp, by simp [JSt.num], by simp [JSt.quiet]⟩
    · exact tokRet_post h (by simp) (by simp) (by simp [JTok.plain, JSt.quiet, *])
  · rename_i e
    split
    · exact Runs.ok ⟨h.frame, h.alloc, by simp, by simp, fun _ => by simp [h.lit2 e], by simp, by simp [JSt.num], by simp [JSt.quiet]⟩
    · exact tokRet_post h (by simp) (by simp) (by simp [JTok.plain, JSt.quiet, *])
  · rename_i e
    split
    · exact Runs.ok ⟨h.frame, h.alloc, by simp, by simp, by simp, fun _ => by simp [h.lit3 e], by simp [JSt.num], by simp [JSt.quiet]⟩
    · exact tokRet_post h (by simp) (by simp) (by simp [JTok.plain, JSt.quiet, *])
  · rename_i e
    split
    · rw [atoi_short (by simp [h.lit4 e])]
      exact tokPut_post h hl (by simp [JSt.quiet]) (by simp) (by simp) (by simp) (by simp [JSt.num])
    · exact tokRet_post h (by simp) (by simp) (by simp [JTok.plain, JSt.quiet, *])
  · rename_i e
    have hn : s.st.num := by simp [e, JSt.num]
    split
    · exact tokEnd_number h hl hn (hp hn)
    split
    · exact tokPut_post h hl (by simp [JSt.quiet]) (by simp) (by simp) (by simp)
        (fun _ => ⟨Or.inl hn, by omega, by omega, rfl⟩)
    split
    · split
      · exact tokRet_post h (by simp) (by simp) (by simp [JTok.plain, JSt.quiet, *])
      · refine tokPut_post (s := { s with frac := true }) ?_ hl (by simp [JSt.quiet]) (by simp) (by simp) (by simp)
          (fun _ => ⟨Or.inl hn, by omega, by omega, rfl⟩)
        exact ⟨h.frame, h.alloc, h.pos, h.lit2, h.lit3, h.lit4, h.num, h.same⟩
    split
    · rename_i g
      exact tokPut_post h hl (by simp [JSt.quiet]) (by simp) (by simp) (by simp)
        (fun _ => ⟨Or.inl hn, (dg g).1, (dg g).2, rfl⟩)
    · exact tokRet_post h (by simp) (by simp) (by simp [JTok.plain, JSt.quiet, *])
  · rename_i e
    have hn : s.st.num := by simp [e, JSt.num]
    split
    · exact tokPut_post h hl (by simp [JSt.quiet]) (by simp) (by simp) (by simp)
        (fun _ => ⟨Or.inl hn, by omega, by omega, rfl⟩)
    split
    · rename_i g
      exact tokPut_post h hl (by simp [JSt.quiet]) (by simp) (by simp) (by simp)
        (fun _ => ⟨Or.inl hn, (dg g).1, (dg g).2, rfl⟩)
    · exact tokRet_post h (by simp) (by simp) (by simp [JTok.plain, JSt.quiet, *])
  · rename_i e
    have hn : s.st.num := by simp [e, JSt.num]
    split
    · exact tokEnd_number h hl hn (hp hn)
    split
    · rename_i g
      exact tokPut_post h hl (by simp [JSt.quiet]) (by simp) (by simp) (by simp)
        (fun _ => ⟨Or.inl hn, (dg g).1, (dg g).2, rfl⟩)
    · exact tokRet_post h (by simp) (by simp) (by simp [JTok.plain, JSt.quiet, *])
  all_goals first
    | (unfold tokLit; split
       · exact tokRet_post h (by simp) (by simp) (by simp [JTok.plain, JSt.quiet, *])
       · exact tokGo_post h (by simp [JSt.num]) (by simp) (by simp) (by simp) (by simp) (by simp [JSt.quiet, *]))
    | (unfold tokLitEnd; split
       · exact tokRet_post h (by simp) (by simp) (by simp [JTok.plain, JSt.quiet, *])
       · exact tokRet_post h (by simp) (by simp) (by simp [JTok.plain, JSt.quiet, *]))
    | skip
  rename_i e
  have k0 : s.k = 0 := by
    rcases h.pos with ⟨-, h⟩ | ⟨h, -⟩
    · exact h
    · exact absurd e h
  have G := fun st' (hn : ¬ JSt.num st') h2 h3 h4 =>
    tokGo_post (c := c) h (st' := st') hn h2 h3 h4 (fun _ => k0) (fun _ => Or.inl e)
  split
  · exact tokRet_post h (by simp) (by simp) (by simp [JTok.plain, JSt.quiet, *])
  split
  · exact G _ (by simp [JSt.num]) (by simp) (by simp) (by simp)
  split
  · exact G _ (by simp [JSt.num]) (by simp) (by simp) (by simp)
  split
  · exact G _ (by simp [JSt.num]) (by simp) (by simp) (by simp)
  split
  · exact G _ (by simp [JSt.num]) (by simp) (by simp) (by simp)
  split
  · exact G _ (by simp [JSt.num]) (by simp) (by simp) (by simp)
  split
  · exact tokRet_post h (by simp) (by simp) (by simp [JTok.plain, JSt.quiet, *])
  split
  · exact tokRet_post h (by simp) (by simp) (by simp [JTok.plain, JSt.quiet, *])
  split
  · rename_i g
    exact tokPut_post h hl (by simp [JSt.quiet]) (by simp) (by simp) (by simp)
      (fun _ => ⟨Or.inr e, by rcases g with g | g; exact (dg g).1; omega,
        by rcases g with g | g; exact (dg g).2; omega, rfl⟩)
  · exact G _ (by simp [JSt.num]) (by simp) (by simp) (by simp)

/-- What a call of the tokenizer gives; `inp` is its input. -/
structure TokPost (m : Mem Int) (b len : Nat) (inp : List Int) (t : JTok) (rest : List Int)
    (m' : Mem Int) : Prop where
  frame : Frame (bufS b len) m m'
  alloc : ∀ k, k < len → ∃ v, m' (b + k) = some v
  str : t = .string → ∃ n, n + 2 ≤ len ∧ m' (b + n) = some 0
  num : t = .number → ∃ p0 txt r', inp = p0 ++ txt ++ r' ∧ (r' = rest ∨ ∃ c, c < 0 ∧ r' = c :: rest) ∧
    txt.length + 2 ≤ len ∧ Text m' b txt ∧ m' (b + txt.length) = some 0 ∧ ∀ c ∈ txt, 0 < c ∧ c < 128
  same : t.plain → m' = m
  suff : rest <:+ inp
  less : t ≠ .eof → rest.length < inp.length

theorem tokEof_post (h : TInv m b len pre s) (hl : 1 ≤ len) :
    Runs (tokEof b s) (fun r => TDone m b len pre r.1 r.2 ∧ r.1 ≠ .string ∧ (r.1 ≠ .eof → s.st.num)) := by
  have hk := h.lt hl
  obtain ⟨w, hw⟩ := h.alloc s.k hk
  unfold tokEof
  split
  · rename_i hs
    have hs' : s.st.num := by rcases hs with hs | hs <;> simp [JSt.num, hs]
    obtain ⟨p0, txt, e, hlen, ht, hc⟩ := h.num hs'
    refine Runs.wr_bind hw (Runs.ok ⟨⟨h.frame.trans (Frame.set (mem_bufS hk) _),
      set_alloc h.alloc _ _, by simp, fun _ => ⟨p0, txt, e, ?_, ht.set (by omega) 0, by simp [hlen],
        hc⟩, by simp [JTok.plain]⟩, by simp, fun _ => hs'⟩)
    rcases h.pos with ⟨h, -⟩ | ⟨-, h⟩
    · rcases hs with hs | hs <;> (rw [hs] at h; cases h)
    · omega
  · exact Runs.ok ⟨⟨h.frame, h.alloc, by simp, by simp, by simp [JTok.plain]⟩, by simp, by simp⟩

theorem tokLoop_post (hl : 1 ≤ len) : ∀ (inp : List Int) {pre : List Int} {s : TokS},
    TInv m b len pre s → (s.st ≠ .value → pre ≠ []) →
    Runs (tokLoop b len s inp) (fun r => TokPost m b len (pre ++ inp) r.1 r.2.1 r.2.2) := by
  intro inp
  induction inp with
  | nil =>
    intro pre s h hp
    unfold tokLoop
    refine Runs.bind (tokEof_post h hl) ?_
    rintro ⟨t, m'⟩ ⟨hd, hns, hne⟩
    refine Runs.ok ⟨hd.frame, hd.alloc, hd.str, fun e => ?_, hd.same, by simp, fun e => ?_⟩
    · obtain ⟨p0, txt, e', h1, h2, h3, h4⟩ := hd.num e
      exact ⟨p0, txt, [], by simp [e'], Or.inl rfl, h1, h2, h3, h4⟩
    · have hs := hne e
      have : pre ≠ [] := hp (by rcases hs with h | h | h <;> simp [h])
      simpa using List.length_pos_iff.2 this
  | cons c r ih =>
    intro pre s h hp
    unfold tokLoop
    split
    · rename_i hc
      refine Runs.bind (tokEof_post h hl) ?_
      rintro ⟨t, m'⟩ ⟨hd, hns, hne⟩
      refine Runs.ok ⟨hd.frame, hd.alloc, hd.str, fun e => ?_, hd.same, ?_, fun e => ?_⟩
      · obtain ⟨p0, txt, e', h1, h2, h3, h4⟩ := hd.num e
        exact ⟨p0, txt, c :: r, by simp [e'], Or.inr ⟨c, hc, rfl⟩, h1, h2, h3, h4⟩
      · exact ⟨pre ++ [c], by simp⟩
      · simp; omega
    · rename_i hc
      refine Runs.bind (tokStep_post h hl (by omega) (fun e => hp (by
        rcases e with e | e | e <;> simp [e]))) ?_
      intro o ho
      cases o with
      | done t u m' =>
        obtain ⟨hd, hu, hnu⟩ := ho
        cases u with
        | true =>
          refine Runs.ok ⟨hd.frame, hd.alloc, hd.str, fun e => ?_, hd.same, ⟨pre, by simp⟩, fun e => ?_⟩
          · obtain ⟨p0, txt, e', h1, h2, h3, h4⟩ := hd.num e
            exact ⟨p0, txt, c :: r, by simp [e'], Or.inl rfl, h1, h2, h3, h4⟩
          · have := List.length_pos_iff.2 (hu rfl).2
            simp; omega
        | false =>
          refine Runs.ok ⟨hd.frame, hd.alloc, hd.str, fun e => ?_, hd.same, ⟨pre ++ [c], by simp⟩, fun e => ?_⟩
          · exact absurd (hnu e) (by simp)
          · simp; omega
      | go s' =>
        dsimp only
        split
        · exact Runs.ok ⟨ho.frame, ho.alloc, by simp, by simp, by simp [JTok.plain], ⟨pre ++ [c], by simp⟩,
            fun _ => by simp; omega⟩
        · rename_i hlen
          have := ih (pre := pre ++ [c]) (s := s') ⟨ho.frame, ho.alloc, ?_, ho.lit2, ho.lit3, ho.lit4,
            ho.num, ho.same⟩ (by simp)
          · simpa using this
          · by_cases e : s'.st = .value
            · exact Or.inl ⟨e, ho.val e⟩
            · exact Or.inr ⟨e, by omega⟩

/-- The tokenizer on any input. -/
theorem readToken_post {inp : List Int} (hl : 1 ≤ len) (ha : ∀ k, k < len → ∃ v, m (b + k) = some v) :
    Runs (readToken m b len inp) (fun r => TokPost m b len inp r.1 r.2.1 r.2.2) := by
  have := tokLoop_post (m := m) (b := b) hl inp (pre := []) (s := ⟨.value, false, [], 0, m⟩)
    ⟨Frame.refl _ _, ha, Or.inl ⟨rfl, rfl⟩, by simp, by simp, by simp, by simp [JSt.num], fun _ => rfl⟩ (by simp)
  rw [List.nil_append] at this
  exact this

end Armas
