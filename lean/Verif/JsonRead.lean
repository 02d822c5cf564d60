import Verif.JsonExact

/-! # Lemmas about reading JSON coordinates and matrices -/

namespace Armas

variable {α : Type} {iob : Mem Int} {b n : Nat}

/-- The `n` cells of the buffer at `b` exist. -/
def BufOk (m : Mem Int) (b n : Nat) : Prop := ∀ k, k < n → ∃ v, m (b + k) = some v

theorem nextTok_ch {c : Int} {r : List Int}
    (hc : c = 123 ∨ c = 125 ∨ c = 91 ∨ c = 93 ∨ c = 58 ∨ c = 44) :
    nextTok b n ⟨iob, c :: r⟩ = .ok (.ch c, ⟨iob, r⟩) := by
  simp [nextTok, readToken_ch hc]

theorem HasStr.cstr {m m' : Mem Int} {txt : List Int} (h : HasStr m b n txt m') (hz : ∀ c ∈ txt, c ≠ 0)
    (hl : txt.length < n) : cstr m' b n = .ok txt := cstr_text h.text h.nul hz hl

theorem nextTok_string {raw t r : List Int} (ha : BufOk iob b n) (ht : StrEnc raw t)
    (hz : ∀ c ∈ t, c ≠ 0) (hl : t.length + 2 ≤ n) :
    ∃ iob', nextTok b n ⟨iob, 34 :: (raw ++ 34 :: r)⟩ = .ok (.string, ⟨iob', r⟩) ∧ BufOk iob' b n ∧
      cstr iob' b n = .ok t := by
  rcases readToken_string (ws := []) (rest := r) ha (by omega) (by simp) ht with ⟨-, m', e, h⟩ | ⟨h, -⟩
  · rw [List.nil_append] at e
    exact ⟨m', by simp [nextTok, e], h.alloc, h.cstr hz (by omega)⟩
  · omega

theorem nextTok_num {l r : List Int} {c : Int} (ha : BufOk iob b n) (hn : JNum l)
    (hl : l.length + 2 ≤ n) (hc : endsNum c = true) :
    ∃ iob', nextTok b n ⟨iob, l ++ c :: r⟩ = .ok (.number, ⟨iob', c :: r⟩) ∧ BufOk iob' b n ∧
      cstr iob' b n = .ok l := by
  rcases readToken_number (ws := []) (rest := r) ha (by omega) (by simp) hn hc with ⟨-, m', e, h⟩ | ⟨h, -⟩
  · rw [List.nil_append] at e
    exact ⟨m', by simp [nextTok, e], h.alloc, h.cstr (fun c hc => by have := hn.chars c hc; omega) (by omega)⟩
  · omega

/-! ## Integers -/

theorem natText_digits (k : Nat) : natText k ≠ [] ∧ ∀ c ∈ natText k, 48 ≤ c ∧ c ≤ 57 := by
  induction k using Nat.strong_induction_on with
  | _ k ih =>
    rw [natText]
    split
    · simp; omega
    · have := ih (k / 10) (by omega)
      refine ⟨by simp, ?_⟩
      intro c hc
      rcases List.mem_append.1 hc with h | h
      · exact this.2 c h
      · simp at h; omega

theorem natText_val (k : Nat) : digitsVal (natText k) = k := by
  induction k using Nat.strong_induction_on with
  | _ k ih =>
    rw [natText]
    split
    · simp [digitsVal]
    · rw [digitsVal_append, ih (k / 10) (by omega)]
      omega

theorem natText_length : ∀ (d k : Nat), k < 10 ^ (d + 1) → (natText k).length ≤ d + 1 := by
  intro d
  induction d with
  | zero =>
    intro k hk
    rw [natText, if_pos (by simpa using hk)]; simp
  | succ d ih =>
    intro k hk
    rw [natText]
    split
    · simp
    · rw [List.length_append, List.length_singleton]
      have := ih (k / 10) (by
        rw [pow_succ] at hk
        exact Nat.div_lt_of_lt_mul (by omega))
      omega

theorem intText_num (v : Int) : JNum (intText v) := by
  have h := natText_digits v.natAbs
  unfold intText
  split
  · exact ⟨[45], natText v.natAbs, [], [], by simp, Or.inr rfl, h, Or.inl rfl, Or.inl rfl⟩
  · exact ⟨[], natText v.natAbs, [], [], by simp, Or.inl rfl, h, Or.inl rfl, Or.inl rfl⟩

/-- `int` values. -/
def IsInt (v : Int) : Prop := -2147483648 ≤ v ∧ v ≤ 2147483647

theorem intText_length {v : Int} (h : IsInt v) : (intText v).length ≤ 11 := by
  have := natText_length 9 v.natAbs (by unfold IsInt at h; norm_num; omega)
  unfold intText
  split <;> simp <;> omega

theorem takeWhile_digits {l : List Int} (h : ∀ c ∈ l, 48 ≤ c ∧ c ≤ 57) : l.takeWhile isDigit = l :=
  by
  induction l with
  | nil => rfl
  | cons c l ih =>
    rw [List.takeWhile_cons_of_pos (isDigit_iff.2 (h c (by simp))), ih (fun c hc => h c (by simp [hc]))]

theorem atoi_intText {v : Int} (h : IsInt v) : atoi (intText v) = .ok v := by
  obtain ⟨hne, hd⟩ := natText_digits v.natAbs
  have e : atoiVal (intText v) = v := by
    unfold intText
    split
    · unfold atoiVal
      rw [List.dropWhile_cons_of_neg (by simp)]
      simp only [if_true]
      rw [takeWhile_digits hd, natText_val]; omega
    · obtain ⟨c, r, e⟩ := List.exists_cons_of_ne_nil hne
      have hc := hd c (by simp [e])
      unfold atoiVal
      rw [e, List.dropWhile_cons_of_neg (by simp; omega)]
      dsimp only
      rw [if_neg (by omega), if_neg (by omega), ← e, takeWhile_digits hd, natText_val]; omega
  unfold atoi
  rw [e]
  exact if_pos h

/-! ## Coordinates -/

/-- Text of a coordinate element with value text `vt`. -/
def tripText (row col : Int) (vt : List Int) : List Int :=
  91 :: (intText row ++ 44 :: (intText col ++ 44 :: (vt ++ [93])))

theorem expect_ch {c : Int} {r : List Int}
    (hc : c = 123 ∨ c = 125 ∨ c = 91 ∨ c = 93 ∨ c = 58 ∨ c = 44) :
    expect b n (.ch c) ⟨iob, c :: r⟩ = .ok (some ⟨iob, r⟩) := by
  simp [expect, nextTok_ch hc]

theorem expect_num {l r : List Int} {c : Int} (ha : BufOk iob b n) (hn : JNum l)
    (hl : l.length + 2 ≤ n) (hc : endsNum c = true) :
    ∃ iob', expect b n .number ⟨iob, l ++ c :: r⟩ = .ok (some ⟨iob', c :: r⟩) ∧ BufOk iob' b n ∧
      cstr iob' b n = .ok l := by
  obtain ⟨iob', e, h1, h2⟩ := nextTok_num (r := r) ha hn hl hc
  exact ⟨iob', by simp [expect, e], h1, h2⟩

theorem readCoord_text {scan : List Int → α} {row col : Int} {vt r : List Int} (ha : BufOk iob b 64)
    (hr : IsInt row) (hc : IsInt col) (hv : JNum vt) (hl : vt.length ≤ 62) :
    ∃ iob', readCoord scan b 64 ⟨iob, tripText row col vt ++ r⟩ = .ok (some (row, col, scan vt, ⟨iob', r⟩)) ∧
      BufOk iob' b 64 := by
  have l1 := intText_length hr
  have l2 := intText_length hc
  obtain ⟨i1, e1, a1, s1⟩ := expect_num (c := 44)
    (r := intText col ++ 44 :: (vt ++ 93 :: r)) ha (intText_num row) (by omega) (by decide)
  obtain ⟨i2, e2, a2, s2⟩ := expect_num (c := 44)
    (r := vt ++ 93 :: r) a1 (intText_num col) (by omega) (by decide)
  obtain ⟨i3, e3, a3, s3⟩ := expect_num (c := 93) (r := r) a2 hv (by omega) (by decide)
  refine ⟨i3, ?_, a3⟩
  have et : tripText row col vt ++ r =
      91 :: (intText row ++ 44 :: (intText col ++ 44 :: (vt ++ 93 :: r))) := by
    simp [tripText]
  unfold readCoord
  rw [et, expect_ch (by simp)]
  simp only [Res.ok_bind]
  rw [e1]
  simp only [Res.ok_bind, s1, atoi_intText hr]
  rw [expect_ch (by simp)]
  simp only [Res.ok_bind]
  rw [e2]
  simp only [Res.ok_bind, s2, atoi_intText hc]
  rw [expect_ch (by simp)]
  simp only [Res.ok_bind]
  rw [e3]
  simp only [Res.ok_bind, s3]
  rw [expect_ch (by simp)]
  rfl

/-- Text of a list of coordinate elements (value text by `fmt`). -/
def tripsText (fmt : α → List Int) : List (Int × Int × α) → List Int
  | [] => []
  | [t] => tripText t.1 t.2.1 (fmt t.2.2)
  | t :: ts => tripText t.1 t.2.1 (fmt t.2.2) ++ 44 :: tripsText fmt ts

theorem readCoordData_text {scan : List Int → α} {fmt : α → List Int} {A : View} {rest : List Int}
    {P : Int × Int × α → Mem α → Mem α} (ts : List (Int × Int × α)) :
    ∀ {fuel cnt : Nat} {m : Mem α} {iob : Mem Int}, ts ≠ [] → ts.length ≤ fuel → BufOk iob b 64 →
    (∀ t ∈ ts, IsInt t.1 ∧ IsInt t.2.1 ∧ JNum (fmt t.2.2) ∧ (fmt t.2.2).length ≤ 62 ∧ scan (fmt t.2.2) = t.2.2) →
    (∀ t ∈ ts, ∀ m', (∀ p, (m' p).isSome = (m p).isSome) →
      coordSet m' A t.1 t.2.1 t.2.2 = .ok (P t m') ∧ ∀ p, (P t m' p).isSome = (m' p).isSome) →
    ∃ iob', readCoordData scan b 64 A fuel cnt m ⟨iob, tripsText fmt ts ++ 93 :: rest⟩ =
      .ok (some (cnt + ts.length), ts.foldl (fun m t => P t m) m, ⟨iob', 93 :: rest⟩) ∧ BufOk iob' b 64 := by
  induction ts with
  | nil => intro _ _ _ _ h; exact absurd rfl h
  | cons t ts ih =>
    intro fuel cnt m iob _ hf ha ht hP
    obtain ⟨fuel, rfl⟩ : ∃ k, fuel = k + 1 := ⟨fuel - 1, by simp at hf; omega⟩
    obtain ⟨h1, h2, h3, h4, h5⟩ := ht t (by simp)
    obtain ⟨p1, p2⟩ := hP t (by simp) m (fun _ => rfl)
    cases ts with
    | nil =>
      obtain ⟨i1, e1, a1⟩ := readCoord_text (scan := scan) (r := 93 :: rest) ha h1 h2 h3 h4
      refine ⟨i1, ?_, a1⟩
      unfold readCoordData
      simp only [tripsText]
      rw [e1]
      simp only [Res.ok_bind, h5]
      rw [p1]
      simp only [Res.ok_bind]
      rw [nextTok_ch (by simp)]
      simp
    | cons t' ts =>
      obtain ⟨i1, e1, a1⟩ := readCoord_text (scan := scan)
        (r := 44 :: (tripsText fmt (t' :: ts) ++ 93 :: rest)) ha h1 h2 h3 h4
      obtain ⟨i2, e2, a2⟩ := ih (fuel := fuel) (cnt := cnt + 1) (m := P t m) (iob := i1) (by simp)
        (by simp at hf ⊢; omega) a1 (fun t ht' => ht t (by simp [ht']))
        (fun t ht' m' hm' => hP t (by simp [ht']) m' (fun p => (hm' p).trans (p2 p)))
      refine ⟨i2, ?_, a2⟩
      unfold readCoordData
      have et : tripsText fmt (t :: t' :: ts) ++ 93 :: rest =
          tripText t.1 t.2.1 (fmt t.2.2) ++ 44 :: (tripsText fmt (t' :: ts) ++ 93 :: rest) := by
        simp [tripsText]
      rw [et, e1]
      simp only [Res.ok_bind, h5]
      rw [p1]
      simp only [Res.ok_bind]
      rw [nextTok_ch (by simp)]
      simp only [Res.ok_bind]
      rw [if_neg (by simp), if_pos trivial, e2]
      simp only [List.length_cons, List.foldl_cons]
      congr 3; omega

/-! ## Any input -/

/-- No run of more than nine digits. -/
def ShortNums (l : List Int) : Prop := ∀ d, d <:+: l → (∀ c ∈ d, isDigit c = true) → d.length ≤ 9

theorem ShortNums.infix {l l' : List Int} (h : ShortNums l) (hs : l' <:+: l) : ShortNums l' :=
  fun d hd hc => h d (hd.trans hs) hc

/-- Result of reading one token. -/
structure NextOk (b n : Nat) (s : RdS) (t : JTok) (s' : RdS) : Prop where
  buf : BufOk s'.iob b n
  suff : s'.inp <:+ s.inp
  less : t ≠ .eof → s'.inp.length < s.inp.length
  str : t = .string → ∃ txt, cstr s'.iob b n = .ok txt
  num : t = .number → ∃ txt, cstr s'.iob b n = .ok txt ∧ txt <:+: s.inp

theorem cstr_exists : ∀ {k : Nat} {m : Mem Int} {b n : Nat}, BufOk m b n → k < n → m (b + k) = some 0 →
    ∃ txt, cstr m b n = .ok txt := by
  intro k
  induction k with
  | zero =>
    intro m b n _ hk h0
    obtain ⟨n, rfl⟩ : ∃ j, n = j + 1 := ⟨n - 1, by omega⟩
    exact ⟨[], by simp at h0; simp [cstr, rd_ok h0]⟩
  | succ k ih =>
    intro m b n ha hk h0
    obtain ⟨n, rfl⟩ : ∃ j, n = j + 1 := ⟨n - 1, by omega⟩
    obtain ⟨v, hv⟩ := ha 0 (by omega)
    have hv' : m b = some v := by simpa using hv
    obtain ⟨txt, e⟩ := ih (m := m) (b := b + 1) (n := n) (fun j hj => by
      have := ha (j + 1) (by omega)
      rwa [show b + 1 + j = b + (j + 1) by omega]) (by omega) (by
      rw [show b + 1 + k = b + (k + 1) by omega]; exact h0)
    by_cases hz : v = 0
    · exact ⟨[], by simp [cstr, rd_ok hv', hz]⟩
    · exact ⟨v :: txt, by simp [cstr, rd_ok hv', hz, e]⟩

theorem nextTok_safe {s : RdS} (hn : 1 ≤ n) (ha : BufOk s.iob b n) :
    Runs (nextTok b n s) (fun r => NextOk b n s r.1 r.2) := by
  unfold nextTok
  refine Runs.bind (readToken_post hn ha) ?_
  rintro ⟨t, r, m'⟩ h
  refine Runs.ok ⟨h.alloc, h.suff, h.less, fun e => ?_, fun e => ?_⟩
  · obtain ⟨k, hk, h0⟩ := h.str e
    exact cstr_exists h.alloc (by omega) h0
  · obtain ⟨p0, txt, r', e', -, hl, ht, h0, hc⟩ := h.num e
    exact ⟨txt, cstr_text ht h0 (fun c h => by have := hc c h; omega) (by omega),
      ⟨p0, r', e'.symm⟩⟩

theorem expect_safe {s : RdS} {t : JTok} (hn : 1 ≤ n) (ha : BufOk s.iob b n) :
    Runs (expect b n t s) (fun o => ∀ s', o = some s' → NextOk b n s t s') := by
  unfold expect
  refine Runs.bind (nextTok_safe hn ha) ?_
  rintro ⟨t', s'⟩ h
  dsimp only at h ⊢
  split
  · rename_i e
    subst e
    exact Runs.ok (fun s'' e => by cases e; exact h)
  · exact Runs.ok (by simp)

/-- Reading a number gives an `int`. -/
theorem atoi_safe {s s' : RdS} (hs : ShortNums s.inp) (h : NextOk b n s .number s') :
    Runs (cstr s'.iob b n >>= atoi) (fun _ => True) := by
  obtain ⟨txt, e, hi⟩ := h.num rfl
  rw [e, Res.ok_bind, atoi_ok (fun d hd => hs d (hd.trans hi))]
  exact Runs.ok trivial

theorem readCoord_safe {scan : List Int → α} {s : RdS} (hn : 1 ≤ n) (ha : BufOk s.iob b n)
    (hs : ShortNums s.inp) :
    Runs (readCoord scan b n s) (fun o => ∀ q, o = some q → BufOk q.2.2.2.iob b n ∧
      q.2.2.2.inp <:+ s.inp ∧ q.2.2.2.inp.length < s.inp.length) := by
  unfold readCoord
  have N : Runs (Res.ok none : Res (Option (Int × Int × α × RdS))) (fun o => ∀ q, o = some q →
      BufOk q.2.2.2.iob b n ∧ q.2.2.2.inp <:+ s.inp ∧ q.2.2.2.inp.length < s.inp.length) := Runs.ok (by simp)
  refine Runs.bind (expect_safe hn ha) ?_
  rintro (_ | s1) h1
  · exact N
  have h1 := h1 _ rfl
  refine Runs.bind (expect_safe hn h1.buf) ?_
  rintro (_ | s2) h2
  · exact N
  have h2 := h2 _ rfl
  refine Runs.bind (atoi_safe (hs.infix h1.suff.isInfix) h2) ?_
  intro row _
  refine Runs.bind (expect_safe hn h2.buf) ?_
  rintro (_ | s3) h3
  · exact N
  have h3 := h3 _ rfl
  refine Runs.bind (expect_safe hn h3.buf) ?_
  rintro (_ | s4) h4
  · exact N
  have h4 := h4 _ rfl
  have t3 := (h3.suff.trans h2.suff).trans h1.suff
  refine Runs.bind (atoi_safe (hs.infix t3.isInfix) h4) ?_
  intro col _
  refine Runs.bind (expect_safe hn h4.buf) ?_
  rintro (_ | s5) h5
  · exact N
  have h5 := h5 _ rfl
  refine Runs.bind (expect_safe hn h5.buf) ?_
  rintro (_ | s6) h6
  · exact N
  have h6 := h6 _ rfl
  obtain ⟨txt, e, -⟩ := h6.num rfl
  dsimp only
  rw [e, Res.ok_bind]
  refine Runs.bind (expect_safe hn h6.buf) ?_
  rintro (_ | s7) h7
  · exact N
  have h7 := h7 _ rfl
  refine Runs.ok ?_
  intro q hq
  cases hq
  have t7 := (((h7.suff.trans h6.suff).trans h5.suff).trans h4.suff).trans t3
  refine ⟨h7.buf, t7, ?_⟩
  have := h7.less (by simp)
  have := ((((h6.suff.trans h5.suff).trans h4.suff).trans t3)).length_le
  dsimp only; omega

/-- Cells of elements (i,j) with `i ≤ rows`, `j ≤ cols`. -/
def View.foot1 (A : View) : Set Nat := {p | ∃ i j, i ≤ A.rows ∧ j ≤ A.cols ∧ p = A.at' i j}

theorem coordSet_safe {m : Mem α} {A : View} {row col : Int} {v : α}
    (hA : ∀ p ∈ A.foot1, (m p).isSome) :
    Runs (coordSet m A row col v) (fun m' => Frame A.foot1 m m' ∧ ∀ p ∈ A.foot1, (m' p).isSome) := by
  unfold coordSet
  split
  · rename_i h
    have hp : A.at' row.toNat col.toNat ∈ A.foot1 := ⟨_, _, by omega, by omega, rfl⟩
    obtain ⟨w, hw⟩ := Option.isSome_iff_exists.1 (hA _ hp)
    refine Runs.wr hw ⟨Frame.set hp v, fun p hp' => ?_⟩
    by_cases e : p = A.at' row.toNat col.toNat
    · rw [e]; simp
    · rw [Mem.set_ne _ _ e]; exact hA p hp'
  · exact Runs.ok ⟨Frame.refl _ _, hA⟩

theorem readCoordData_safe {scan : List Int → α} {A : View} (hn : 1 ≤ n) :
    ∀ (fuel : Nat) {cnt : Nat} {m : Mem α} {s : RdS}, BufOk s.iob b n → ShortNums s.inp →
    s.inp.length < fuel → (∀ p ∈ A.foot1, (m p).isSome) →
    Runs (readCoordData scan b n A fuel cnt m s) (fun r => Frame A.foot1 m r.2.1) := by
  intro fuel
  induction fuel with
  | zero => intro cnt m s _ _ h; omega
  | succ fuel ih =>
    intro cnt m s ha hs hf hA
    unfold readCoordData
    refine Runs.bind (readCoord_safe hn ha hs) ?_
    rintro (_ | ⟨row, col, v, s1⟩) h1
    · exact Runs.ok (Frame.refl _ _)
    obtain ⟨b1, f1, l1⟩ := h1 _ rfl
    dsimp only at b1 f1 l1 ⊢
    refine Runs.bind (coordSet_safe hA) ?_
    rintro m1 ⟨fr, hA1⟩
    refine Runs.bind (nextTok_safe hn b1) ?_
    rintro ⟨t, s2⟩ h2
    dsimp only at h2 ⊢
    split
    · exact Runs.ok fr
    split
    · rename_i e
      refine (ih h2.buf (hs.infix (h2.suff.trans f1).isInfix) ?_ hA1).mono (fun r h => fr.trans h)
      have := h2.less (by simp [e])
      omega
    · exact Runs.ok fr

end Armas
