import Verif.JsonLemmas

/-! # What the JSON tokenizer returns on well-formed tokens -/

namespace Armas

/-- Escape sequences: letter behind the backslash, character meant. -/
def Esc (e c : Int) : Prop :=
  (e = 34 ∧ c = 34) ∨ (e = 92 ∧ c = 92) ∨ (e = 47 ∧ c = 47) ∨ (e = 98 ∧ c = 8) ∨
  (e = 110 ∧ c = 10) ∨ (e = 114 ∧ c = 13) ∨ (e = 116 ∧ c = 9)

/-- `StrEnc raw txt`: between the quotes stands `raw` and the string meant is `txt`
(escapes but `\u`). -/
inductive StrEnc : List Int → List Int → Prop
  | nil : StrEnc [] []
  | plain {c : Int} {r t : List Int} : 0 ≤ c → c < 128 → c ≠ 34 → c ≠ 92 → StrEnc r t →
      StrEnc (c :: r) (c :: t)
  | esc {e c : Int} {r t : List Int} : Esc e c → StrEnc r t → StrEnc (92 :: e :: r) (c :: t)

/-- State of the tokenizer with text `txt` in the buffer. -/
structure TSt (m : Mem Int) (b len : Nat) (txt : List Int) (st : JSt) (s : TokS) : Prop where
  st : s.st = st
  k : txt.length = s.k
  text : Text s.mem b txt
  frame : Frame (bufS b len) m s.mem
  alloc : ∀ k, k < len → ∃ v, s.mem (b + k) = some v

/-- The buffer holds the NUL terminated string `txt`. -/
structure HasStr (m : Mem Int) (b len : Nat) (txt : List Int) (m' : Mem Int) : Prop where
  text : Text m' b txt
  nul : m' (b + txt.length) = some 0
  frame : Frame (bufS b len) m m'
  alloc : ∀ k, k < len → ∃ v, m' (b + k) = some v

variable {m : Mem Int} {b len : Nat} {txt : List Int} {st st' : JSt} {s : TokS} {c : Int}

theorem tokLoop_cons (hc : 0 ≤ c) (r : List Int) : tokLoop b len s (c :: r) = (do
      match ← tokStep b s c with
      | .done t true m => .ok (t, c :: r, m)
      | .done t false m => .ok (t, r, m)
      | .go s' =>
        if 0 < len ∧ len - 1 ≤ s'.k then .ok (.e2big, r, s'.mem)
        else tokLoop b len s' r) := by
  rw [tokLoop, if_neg (by omega)]
  congr 1

/-- A pass that stores a character: there is room and the loop goes on, or the token is too big. -/
theorem tokLoop_put {s0 : TokS} (h : TSt m b len txt st s) (hl : txt.length + 1 < len) (hc : 0 ≤ c)
    {v : Int} (hv : 0 ≤ v ∧ v < 128)
    (he : tokStep b s c = tokPut b s0 v st') (h0 : s0.k = s.k ∧ s0.mem = s.mem) (r : List Int) :
    (txt.length + 2 < len ∧ ∃ s', tokLoop b len s (c :: r) = tokLoop b len s' r ∧
        TSt m b len (txt ++ [v]) st' s' ∧ s'.frac = s0.frac) ∨
      (len ≤ txt.length + 2 ∧ ∃ m', tokLoop b len s (c :: r) = .ok (.e2big, r, m')) := by
  have hk : s.k < len := by rw [← h.k]; omega
  obtain ⟨w, hw⟩ := h.alloc s.k hk
  have ev : toChar v = v := by simp [toChar]; omega
  have e1 : tokPut b s0 v st' = .ok (.go { s0 with st := st', k := s.k + 1, mem := s.mem.set (b + s.k) v }) := by
    unfold tokPut
    rw [h0.2, h0.1, wr_ok hw, ev]; rfl
  have e2 := h.k
  rw [tokLoop_cons hc, he, e1]
  simp only [Res.ok_bind]
  by_cases hr : txt.length + 2 < len
  · refine Or.inl ⟨hr, { s0 with st := st', k := s.k + 1, mem := s.mem.set (b + s.k) v },
      if_neg (show ¬ (0 < len ∧ len - 1 ≤ s.k + 1) by omega), ⟨rfl, by simp [e2], h.text.push e2 v,
      h.frame.trans (Frame.set (mem_bufS hk) _), set_alloc h.alloc _ _⟩, rfl⟩
  · exact Or.inr ⟨by omega, _, if_pos (by omega)⟩

/-- A pass that only changes the state. -/
theorem tokLoop_go (h : TSt m b len txt st s) (hl : txt.length + 1 < len) (hc : 0 ≤ c)
    (he : tokStep b s c = tokGo s st') (r : List Int) :
    ∃ s', tokLoop b len s (c :: r) = tokLoop b len s' r ∧ TSt m b len txt st' s' ∧ s'.frac = s.frac := by
  rw [tokLoop_cons hc, he]
  simp only [tokGo, Res.ok_bind]
  have e2 := h.k
  exact ⟨{ s with st := st' }, if_neg (show ¬ (0 < len ∧ len - 1 ≤ s.k) by omega), ⟨rfl, h.k, h.text, h.frame, h.alloc⟩, rfl⟩

theorem tokLoop_string {raw t : List Int} (ht : StrEnc raw t) : ∀ {txt : List Int} {s : TokS},
    TSt m b len txt .string s → txt.length + 1 < len → ∀ rest : List Int,
    (txt.length + t.length + 2 ≤ len ∧ ∃ m', tokLoop b len s (raw ++ 34 :: rest) = .ok (.string, rest, m') ∧
        HasStr m b len (txt ++ t) m') ∨
      (len < txt.length + t.length + 2 ∧ ∃ rest' m', tokLoop b len s (raw ++ 34 :: rest) = .ok (.e2big, rest', m')) := by
  induction ht with
  | nil =>
    intro txt s h hl rest
    refine Or.inl ⟨by simp; omega, ?_⟩
    have hk : s.k < len := by rw [← h.k]; omega
    obtain ⟨w, hw⟩ := h.alloc s.k hk
    have : tokStep b s 34 = .ok (.done .string false (s.mem.set (b + s.k) 0)) := by
      simp [tokStep, h.st, tokEnd, wr_ok hw]
    rw [List.nil_append]
    unfold tokLoop
    rw [if_neg (by omega), this]
    refine ⟨_, rfl, ?_⟩
    rw [List.append_nil]
    exact ⟨h.text.set (by rw [h.k]) 0, by rw [h.k]; simp,
      h.frame.trans (Frame.set (mem_bufS hk) _), set_alloc h.alloc _ _⟩
  | @plain c r t h0 h1 h2 h3 _ ih =>
    intro txt s h hl rest
    have e : tokStep b s c = tokPut b s c .string := by simp [tokStep, h.st, h2, h3]
    rcases tokLoop_put h hl h0 ⟨h0, h1⟩ e ⟨rfl, rfl⟩ (r ++ 34 :: rest) with ⟨hr, s', e', h', -⟩ | ⟨hr, m', e'⟩
    · have := ih h' (by simp; omega) rest
      rw [List.cons_append, e']
      simp only [List.length_append, List.length_cons, List.length_nil, List.append_assoc,
        List.singleton_append] at this ⊢
      rcases this with ⟨h1, h2⟩ | ⟨h1, h2⟩
      · exact Or.inl ⟨by omega, h2⟩
      · exact Or.inr ⟨by omega, h2⟩
    · exact Or.inr ⟨by simp; omega, _, m', e'⟩
  | @esc e c r t he _ ih =>
    intro txt s h hl rest
    have e1 : tokStep b s 92 = tokGo s .escape := by simp [tokStep, h.st]
    obtain ⟨s1, e2, h1, -⟩ := tokLoop_go h hl (by norm_num) e1 (e :: (r ++ 34 :: rest))
    have hc : (0 ≤ c ∧ c < 128) ∧ 0 ≤ e := by unfold Esc at he; omega
    have e3 : tokStep b s1 e = tokPut b s1 c .string := by
      rcases he with ⟨rfl, rfl⟩ | ⟨rfl, rfl⟩ | ⟨rfl, rfl⟩ | ⟨rfl, rfl⟩ | ⟨rfl, rfl⟩ | ⟨rfl, rfl⟩ | ⟨rfl, rfl⟩ <;>
        simp [tokStep, h1.st]
    rw [List.cons_append, List.cons_append, e2]
    rcases tokLoop_put h1 hl hc.2 hc.1 e3 ⟨rfl, rfl⟩ (r ++ 34 :: rest) with ⟨hr, s', e', h', -⟩ | ⟨hr, m', e'⟩
    · have := ih h' (by simp; omega) rest
      rw [e']
      simp only [List.length_append, List.length_cons, List.length_nil, List.append_assoc,
        List.singleton_append] at this ⊢
      rcases this with ⟨h1, h2⟩ | ⟨h1, h2⟩
      · exact Or.inl ⟨by omega, h2⟩
      · exact Or.inr ⟨by omega, h2⟩
    · exact Or.inr ⟨by simp; omega, _, m', e'⟩

/-- White space. -/
def isWs (c : Int) : Prop := c = 32 ∨ c = 10 ∨ c = 9 ∨ c = 13

theorem tokLoop_ws : ∀ (ws : List Int) {s : TokS}, TSt m b len [] .value s → s.frac = false → 1 < len →
    (∀ c ∈ ws, isWs c) → ∀ r, ∃ s', tokLoop b len s (ws ++ r) = tokLoop b len s' r ∧
      TSt m b len [] .value s' ∧ s'.frac = false := by
  intro ws
  induction ws with
  | nil => intro s h hf hl _ r; exact ⟨s, rfl, h, hf⟩
  | cons c ws ih =>
    intro s h hf hl hw r
    have hc := hw c (by simp)
    have e1 : tokStep b s c = tokGo s .value := by
      rcases hc with rfl | rfl | rfl | rfl <;> simp [tokStep, h.st]
    obtain ⟨s1, e2, h1, f1⟩ := tokLoop_go h hl (by unfold isWs at hc; omega) e1 (ws ++ r)
    obtain ⟨s2, e3, h2, f2⟩ := ih h1 (f1.trans hf) hl (fun c hc => hw c (by simp [hc])) r
    exact ⟨s2, by rw [List.cons_append, e2, e3], h2, f2⟩

theorem TSt.start (ha : ∀ k, k < len → ∃ v, m (b + k) = some v) :
    TSt m b len [] .value ⟨.value, false, [], 0, m⟩ :=
  ⟨rfl, rfl, Text.nil _ _, Frame.refl _ _, ha⟩

theorem readToken_string {ws raw t rest : List Int} (ha : ∀ k, k < len → ∃ v, m (b + k) = some v)
    (hl : 1 < len) (hw : ∀ c ∈ ws, isWs c) (ht : StrEnc raw t) :
    (t.length + 2 ≤ len ∧ ∃ m', readToken m b len (ws ++ 34 :: (raw ++ 34 :: rest)) = .ok (.string, rest, m') ∧
        HasStr m b len t m') ∨
      (len < t.length + 2 ∧ ∃ rest' m', readToken m b len (ws ++ 34 :: (raw ++ 34 :: rest)) = .ok (.e2big, rest', m')) := by
  obtain ⟨s1, e1, h1, -⟩ := tokLoop_ws ws (TSt.start ha) rfl hl hw (34 :: (raw ++ 34 :: rest))
  obtain ⟨s2, e2, h2, -⟩ := tokLoop_go (c := 34) (st' := .string) h1 (by simpa using hl) (by norm_num)
    (by simp [tokStep, h1.st]) (raw ++ 34 :: rest)
  have := tokLoop_string ht h2 (by simpa using hl) rest
  unfold readToken
  rw [e1, e2]
  simpa using this

/-! ## Numbers -/

/-- JSON numbers (`src/io/json_reader.c:33-48`), without the rule against leading zeros and with an
optional empty fraction. -/
def JNum (l : List Int) : Prop :=
  ∃ sg ds fr ex : List Int, l = sg ++ ds ++ fr ++ ex ∧ (sg = [] ∨ sg = [45]) ∧
    (ds ≠ [] ∧ ∀ c ∈ ds, 48 ≤ c ∧ c ≤ 57) ∧
    (fr = [] ∨ ∃ fs : List Int, fr = 46 :: fs ∧ ∀ c ∈ fs, 48 ≤ c ∧ c ≤ 57) ∧
    (ex = [] ∨ ∃ (e : Int) (sg es : List Int), ex = e :: (sg ++ es) ∧ (e = 101 ∨ e = 69) ∧
      (sg = [] ∨ sg = [43] ∨ sg = [45]) ∧ es ≠ [] ∧ ∀ c ∈ es, 48 ≤ c ∧ c ≤ 57)

/-- Transitions of the tokenizer that store a character of a number. -/
def numD (q : JSt × Bool) (c : Int) : Option (JSt × Bool) :=
  match q.1 with
  | .value => if isDigit c ∨ c = 45 then some (.number, q.2) else none
  | .number =>
    if c = 101 ∨ c = 69 then some (.exp, q.2)
    else if c = 46 then (if q.2 then none else some (.number, true))
    else if isDigit c then some (.number, q.2) else none
  | .exp =>
    if c = 45 ∨ c = 43 then some (.exp, q.2)
    else if isDigit c then some (.exp1, q.2) else none
  | .exp1 => if isDigit c then some (.exp1, q.2) else none
  | _ => none

/-- A run of `numD`. -/
def numRun : JSt × Bool → List Int → Option (JSt × Bool)
  | q, [] => some q
  | q, c :: l => match numD q c with
    | some q' => numRun q' l
    | none => none

theorem numRun_append (q : JSt × Bool) (l l' : List Int) {q' : JSt × Bool} (h : numRun q l = some q') :
    numRun q (l ++ l') = numRun q' l' := by
  induction l generalizing q with
  | nil => simp only [numRun, Option.some.injEq] at h; subst h; rfl
  | cons c l ih =>
    simp only [numRun] at h
    simp only [List.cons_append, numRun]
    cases e : numD q c with
    | none => simp [e] at h
    | some q1 => simp only [e] at h ⊢; exact ih q1 h

theorem numRun_digits (q : JSt × Bool) (h : q.1 = .number ∨ q.1 = .exp1) (l : List Int)
    (hd : ∀ c ∈ l, 48 ≤ c ∧ c ≤ 57) : numRun q l = some q := by
  induction l with
  | nil => rfl
  | cons c l ih =>
    have hc := hd c (by simp)
    have : numD q c = some q := by
      obtain ⟨q1, q2⟩ := q
      rcases h with h | h
      · dsimp only at h; subst h
        have : isDigit c = true := isDigit_iff.2 hc
        simp only [numD, this, if_true]
        rw [if_neg (by omega), if_neg (by omega)]
      · dsimp only at h; subst h
        have : isDigit c = true := isDigit_iff.2 hc
        simp [numD, this]
    simp only [numRun, this]
    exact ih (fun c hc => hd c (by simp [hc]))

theorem JNum.run {l : List Int} (h : JNum l) :
    ∃ q, numRun (.value, false) l = some q ∧ (q.1 = .number ∨ q.1 = .exp1) := by
  obtain ⟨sg, ds, fr, ex, rfl, hs, ⟨hd0, hd⟩, hf, he⟩ := h
  have h1 : numRun (.value, false) (sg ++ ds) = some (.number, false) := by
    obtain ⟨d, ds, rfl⟩ := List.exists_cons_of_ne_nil hd0
    have hc := hd d (by simp)
    have hc' : isDigit d = true := isDigit_iff.2 hc
    rcases hs with rfl | rfl
    · simp only [List.nil_append, numRun, numD, hc', true_or, if_true]
      exact numRun_digits _ (Or.inl rfl) _ (fun c hc => hd c (by simp [hc]))
    · have : numD (.value, false) 45 = some (.number, false) := by simp [numD]
      simp only [List.singleton_append, numRun, this]
      exact numRun_digits _ (Or.inl rfl) (d :: ds) hd
  obtain ⟨f, h2⟩ : ∃ f, numRun (.value, false) (sg ++ ds ++ fr) = some (.number, f) := by
    rcases hf with rfl | ⟨fs, rfl, hfs⟩
    · exact ⟨false, by simpa using h1⟩
    · refine ⟨true, ?_⟩
      rw [numRun_append _ _ _ h1]
      have : numD (.number, false) 46 = some (.number, true) := by simp [numD]
      simp only [numRun, this]
      exact numRun_digits _ (Or.inl rfl) _ hfs
  rcases he with rfl | ⟨e, sg', es, rfl, he, hs', he0, hes⟩
  · exact ⟨_, by simpa using h2, Or.inl rfl⟩
  · refine ⟨(.exp1, f), ?_, Or.inr rfl⟩
    rw [numRun_append _ _ _ h2]
    have e1 : numD (.number, f) e = some (.exp, f) := by simp [numD, he]
    have e2 : numRun (.exp, f) sg' = some (.exp, f) := by
      rcases hs' with rfl | rfl | rfl <;> simp [numRun, numD]
    simp only [numRun, e1]
    rw [numRun_append _ _ _ e2]
    obtain ⟨d, es, rfl⟩ := List.exists_cons_of_ne_nil he0
    have hc := hes d (by simp)
    have hc' : isDigit d = true := isDigit_iff.2 hc
    have e3 : numD (.exp, f) d = some (.exp1, f) := by simp [numD, hc']; omega
    simp only [numRun, e3]
    exact numRun_digits _ (Or.inr rfl) _ (fun c hc => hes c (by simp [hc]))

theorem JNum.chars {l : List Int} (h : JNum l) : ∀ c ∈ l, 0 < c ∧ c < 128 := by
  obtain ⟨sg, ds, fr, ex, rfl, hs, ⟨hd0, hd⟩, hf, he⟩ := h
  intro c hc
  simp only [List.mem_append] at hc
  rcases hc with ((hc | hc) | hc) | hc
  · rcases hs with rfl | rfl <;> simp at hc; omega
  · have := hd c hc; omega
  · rcases hf with rfl | ⟨fs, rfl, hfs⟩
    · simp at hc
    · rcases List.mem_cons.1 hc with rfl | hc
      · omega
      · have := hfs c hc; omega
  · rcases he with rfl | ⟨e, sg', es, rfl, he, hs', he0, hes⟩
    · simp at hc
    · rcases List.mem_cons.1 hc with rfl | hc
      · omega
      · rcases List.mem_append.1 hc with hc | hc
        · rcases hs' with rfl | rfl | rfl <;> simp at hc <;> omega
        · have := hes c hc; omega

theorem JNum.ne_nil {l : List Int} (h : JNum l) : l ≠ [] := by
  obtain ⟨sg, ds, fr, ex, rfl, hs, ⟨hd0, hd⟩, hf, he⟩ := h
  simp [hd0]

theorem numD_step {s : TokS} {q : JSt × Bool} (h : numD (s.st, s.frac) c = some q) :
    0 < c ∧ c < 128 ∧ tokStep b s c = tokPut b { s with frac := q.2 } c q.1 := by
  obtain ⟨st, fr, lit, k, mem⟩ := s
  dsimp only at h
  have dg : isDigit c = true → 48 ≤ c ∧ c ≤ 57 := isDigit_iff.1
  cases st <;> simp only [numD] at h <;> first | (cases h; done) | skip
  · split at h
    · rename_i g
      cases h
      have hc : c = 45 ∨ (48 ≤ c ∧ c ≤ 57) := by
        rcases g with g | g
        · exact Or.inr (dg g)
        · exact Or.inl g
      refine ⟨by omega, by omega, ?_⟩
      have hn : isCntrl c = false := by simp [isCntrl]; omega
      simp only [tokStep]
      rw [if_neg (by omega), if_neg (by omega), if_neg (by omega), if_neg (by omega),
        if_neg (by omega), if_neg (by omega), if_neg (by omega), hn]
      simp only [Bool.false_eq_true, if_false]
      rw [if_pos g]
    · cases h
  · split at h
    · rename_i g
      cases h
      refine ⟨by omega, by omega, ?_⟩
      have : endsNum c = false := by simp [endsNum]; omega
      simp [tokStep, this, g]
    · split at h
      · rename_i g
        subst g
        split at h
        · cases h
        · rename_i g
          cases h
          refine ⟨by omega, by omega, ?_⟩
          have : endsNum 46 = false := by simp [endsNum]
          simp [tokStep, this, g]
      · split at h
        · rename_i g1 g2 g3
          cases h
          have := dg g3
          refine ⟨by omega, by omega, ?_⟩
          have : endsNum c = false := by simp [endsNum]; omega
          simp only [tokStep, this, Bool.false_eq_true, if_false, g1, g2, g3, if_true]
        · cases h
  · split at h
    · rename_i g
      cases h
      refine ⟨by omega, by omega, ?_⟩
      simp [tokStep, g]
    · split at h
      · rename_i g1 g3
        cases h
        have := dg g3
        refine ⟨by omega, by omega, ?_⟩
        simp only [tokStep, g1, g3, if_true, if_false]
      · cases h
  · split at h
    · rename_i g3
      cases h
      have := dg g3
      refine ⟨by omega, by omega, ?_⟩
      have : endsNum c = false := by simp [endsNum]; omega
      simp only [tokStep, this, Bool.false_eq_true, if_false, g3, if_true]
    · cases h

theorem tokLoop_num {q : JSt × Bool} : ∀ (l : List Int) {txt : List Int} {s : TokS} (st : JSt),
    TSt m b len txt st s → txt.length + 1 < len → numRun (s.st, s.frac) l = some q → ∀ rest : List Int,
    (txt.length + l.length + 2 ≤ len ∧ ∃ s', tokLoop b len s (l ++ rest) = tokLoop b len s' rest ∧
        TSt m b len (txt ++ l) q.1 s') ∨
      (len < txt.length + l.length + 2 ∧ ∃ rest' m', tokLoop b len s (l ++ rest) = .ok (.e2big, rest', m')) := by
  intro l
  induction l with
  | nil =>
    intro txt s st h hl hr rest
    simp only [numRun, Option.some.injEq] at hr
    subst hr
    exact Or.inl ⟨by simp; omega, s, rfl, by
      rw [List.append_nil]
      exact ⟨rfl, h.k, h.text, h.frame, h.alloc⟩⟩
  | cons c l ih =>
    intro txt s st h hl hr rest
    simp only [numRun] at hr
    cases e : numD (s.st, s.frac) c with
    | none => simp [e] at hr
    | some q' =>
      simp only [e] at hr
      obtain ⟨c0, c1, e1⟩ := numD_step (b := b) e
      rcases tokLoop_put h hl (by omega) ⟨by omega, c1⟩ e1 ⟨rfl, rfl⟩ (l ++ rest) with
        ⟨hr', s', e', h', hf⟩ | ⟨hr', m', e'⟩
      · have := ih q'.1 h' (by simp; omega) (by rw [h'.st, hf]; exact hr) rest
        rw [List.cons_append, e']
        simp only [List.length_append, List.length_cons, List.length_nil, List.append_assoc,
          List.singleton_append] at this ⊢
        rcases this with ⟨h1, h2⟩ | ⟨h1, h2⟩
        · exact Or.inl ⟨by omega, h2⟩
        · exact Or.inr ⟨by omega, h2⟩
      · exact Or.inr ⟨by simp; omega, _, m', e'⟩

theorem readToken_number {ws l rest : List Int} (ha : ∀ k, k < len → ∃ v, m (b + k) = some v)
    (hl : 1 < len) (hw : ∀ c ∈ ws, isWs c) (hn : JNum l) (hc : endsNum c = true) :
    (l.length + 2 ≤ len ∧ ∃ m', readToken m b len (ws ++ (l ++ c :: rest)) = .ok (.number, c :: rest, m') ∧
        HasStr m b len l m') ∨
      (len < l.length + 2 ∧ ∃ rest' m', readToken m b len (ws ++ (l ++ c :: rest)) = .ok (.e2big, rest', m')) := by
  obtain ⟨q, hq, hq'⟩ := hn.run
  obtain ⟨s1, e1, h1, f1⟩ := tokLoop_ws ws (TSt.start ha) rfl hl hw (l ++ c :: rest)
  have := tokLoop_num l .value h1 (by simpa using hl) (by rw [h1.st, f1]; exact hq) (c :: rest)
  unfold readToken
  rw [e1]
  simp only [List.length_nil, Nat.zero_add, List.nil_append] at this
  rcases this with ⟨hr, s', e', h'⟩ | h
  · refine Or.inl ⟨hr, ?_⟩
    rw [e']
    have hk : s'.k < len := by rw [← h'.k]; omega
    obtain ⟨w, hw⟩ := h'.alloc s'.k hk
    have : tokStep b s' c = .ok (.done .number true (s'.mem.set (b + s'.k) 0)) := by
      have h3 := h'.st
      rcases hq' with h2 | h2 <;> rw [h2] at h3 <;> simp [tokStep, h3, hc, tokEnd, wr_ok hw]
    unfold tokLoop
    rw [if_neg (by simp [endsNum] at hc; omega), this]
    refine ⟨_, rfl, h'.text.set (by rw [h'.k]) 0, by rw [h'.k]; simp,
      h'.frame.trans (Frame.set (mem_bufS hk) _), set_alloc h'.alloc _ _⟩
  · exact Or.inr h

/-- A token of one character. -/
theorem readToken_ch {rest : List Int}
    (hc : c = 123 ∨ c = 125 ∨ c = 91 ∨ c = 93 ∨ c = 58 ∨ c = 44) :
    readToken m b len (c :: rest) = .ok (.ch c, rest, m) := by
  unfold readToken tokLoop
  rw [if_neg (by omega)]
  simp [tokStep, hc, tokRet]

end Armas
