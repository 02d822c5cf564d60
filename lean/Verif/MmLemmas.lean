import Verif.Mm
import Verif.JsonRead
import Mathlib.Tactic.Ring
import Mathlib.Tactic.Linarith

/-! Lemmas on MatrixMarket files (src/io/iomm.c). -/

namespace Armas

variable {α : Type}

/-- First row of column `j` in a file. -/
def mmLo (symm : Bool) (j : Nat) : Nat := if symm then j else 0

/-- Lines of `c` columns from column `j` on. -/
def mmCols (f : Nat → Nat → List Int) (R : Nat) (symm : Bool) : Nat → Nat → List (List Int)
  | _, 0 => []
  | j, c + 1 => (List.range' (mmLo symm j) (R - mmLo symm j)).map (fun i => f i j) ++ mmCols f R symm (j + 1) c

theorem mmCols_snoc (f : Nat → Nat → List Int) (R : Nat) (symm : Bool) : ∀ (c j : Nat),
    mmCols f R symm j (c + 1) = mmCols f R symm j c ++
      (List.range' (mmLo symm (j + c)) (R - mmLo symm (j + c))).map (fun i => f i (j + c)) := by
  intro c
  induction c with
  | zero => intro j; simp [mmCols]
  | succ c ih =>
    intro j
    rw [mmCols, ih (j + 1), mmCols, List.append_assoc]
    rw [show j + 1 + c = j + (c + 1) by omega]

theorem mmCols_length_gen (f : Nat → Nat → List Int) (R : Nat) : ∀ (c j : Nat),
    (mmCols f R false j c).length = R * c := by
  intro c
  induction c with
  | zero => intro j; simp [mmCols]
  | succ c ih => intro j; simp [mmCols, ih, mmLo]; ring

theorem mmCols_length_symm (f : Nat → Nat → List Int) (R : Nat) : ∀ (c j : Nat), j + c = R →
    2 * (mmCols f R true j c).length = c * (c + 1) := by
  intro c
  induction c with
  | zero => intro j _; simp [mmCols]
  | succ c ih =>
    intro j h
    have h1 := ih (j + 1) (by omega)
    have h2 : R - j = c + 1 := by omega
    simp only [mmCols, mmLo, if_true, List.length_append, List.length_map, List.length_range', h2]
    rw [Nat.mul_add, h1]; ring

/-- The lines written by `armas_mmdump`. -/
theorem mmDump_text {fmt : α → List Int} {m : Mem α} {A : View} {symm : Bool} {a : Nat → Nat → α}
    (hA : Holds m A a) :
    mmDump fmt m A symm = .ok ((chars "%%Matrixmarket matrix array real " ++
      (if symm then chars "symmetric" else chars "general")) ::
      (intText A.rows ++ 32 :: intText A.cols) ::
      mmCols (fun i j => fmt (a i j)) A.rows symm 0 A.cols) := by
  have inner : ∀ (j : Nat) (o : List (List Int)), j < A.cols →
      Runs (forUp (if symm then j else 0) A.rows 1 (fun k o => do
        let v ← rd m (A.at' k j)
        .ok (o ++ [fmt v])) o)
      (fun st => st.2 = o ++ (List.range' (mmLo symm j) (A.rows - mmLo symm j)).map (fun i => fmt (a i j))) := by
    intro j o hj
    by_cases hle : mmLo symm j ≤ A.rows
    · refine Runs.forUp1 (fun k o' => o' = o ++ (List.range' (mmLo symm j) (k - mmLo symm j)).map
        (fun i => fmt (a i j))) (by exact hle) ?_ ?_ ?_
      · show o = _
        rw [show (if symm = true then j else 0) - mmLo symm j = 0 by simp [mmLo]]; simp
      · intro k o' h1 h2 h3
        rw [h3]
        refine Runs.rd_bind (hA k j h2 hj) (Runs.ok ?_)
        have h1' : mmLo symm j ≤ k := h1
        rw [show k + 1 - mmLo symm j = (k - mmLo symm j) + 1 by omega, List.range'_1_concat]
        simp [show mmLo symm j + (k - mmLo symm j) = k by omega]
      · intro o' h; exact h
    · rw [forUp_eq, if_neg (by have h : ¬ (if symm = true then j else 0) ≤ A.rows := hle; omega)]
      refine Runs.ok ?_
      rw [show A.rows - mmLo symm j = 0 by omega]; simp
  have outer : Runs (forUp 0 A.cols 1 (fun j o => do
      let (_, o) ← forUp (if symm then j else 0) A.rows 1 (fun k o => do
        let v ← rd m (A.at' k j)
        .ok (o ++ [fmt v])) o
      .ok o) ([] : List (List Int)))
      (fun st => st.2 = mmCols (fun i j => fmt (a i j)) A.rows symm 0 A.cols) := by
    refine Runs.forUp1 (fun j o => o = mmCols (fun i j => fmt (a i j)) A.rows symm 0 j)
      (Nat.zero_le _) (by simp [mmCols]) ?_ (fun o h => h)
    intro j o _ hj ho
    refine Runs.bind (inner j o hj) ?_
    rintro ⟨_, o'⟩ h
    refine Runs.ok ?_
    dsimp only at h
    rw [mmCols_snoc, Nat.zero_add, h, ho]
  obtain ⟨⟨x, o⟩, h1, h2⟩ := outer
  unfold mmDump
  dsimp only at h2
  rw [h1, h2]
  rfl

/-- The state in front of the line with element `(i, j)`. -/
def MmReady (symm : Bool) (R : Int) (i j : Nat) (s : MmS α) : Prop :=
  (mmPos symm R s).r = i ∧ (mmPos symm R s).c = j ∧ (mmPos symm R s).k = s.k ∧
    (if symm then (mmPos symm R s).nc = s.k + (R - i) else s.k = i + j * R)

theorem mmReady_gen {R : Nat} {i j : Nat} {s : MmS α} (hi : i < R) (h : s.k = i + j * (R : Int)) :
    MmReady false R i j s := by
  have hk : s.k = ((i + j * R : Nat) : Int) := by rw [h]; push_cast; ring
  refine ⟨?_, ?_, rfl, ?_⟩
  · show s.k.tmod R = i
    rw [hk]
    show ((((i + j * R) % R : Nat)) : Int) = _
    rw [Nat.add_mul_mod_self_right, Nat.mod_eq_of_lt hi]
  · show s.k.tdiv R = j
    rw [hk]
    show ((((i + j * R) / R : Nat)) : Int) = _
    rw [Nat.add_mul_div_right _ _ (by omega), Nat.div_eq_of_lt hi, Nat.zero_add]
  · simp [h]

theorem mmReady_next {symm : Bool} {R i j : Nat} {s s' : MmS α} (h : MmReady symm R i j s) (hi : i + 1 < R)
    (hr : s'.r = (mmPos symm R s).r) (hc : s'.c = (mmPos symm R s).c) (hn : s'.nc = (mmPos symm R s).nc)
    (hk : s'.k = s.k + 1) : MmReady symm R (i + 1) j s' := by
  obtain ⟨h1, h2, h3, h4⟩ := h
  cases symm with
  | false =>
    simp only [Bool.false_eq_true, if_false] at h4
    refine mmReady_gen hi ?_
    rw [hk, h4]; push_cast; ring
  | true =>
    simp only [if_true] at h4
    have hne : s'.k ≠ s'.nc := by rw [hk, hn, h4]; omega
    unfold MmReady mmPos
    simp only [if_true, if_neg hne]
    refine ⟨by rw [hr, h1]; push_cast; rfl, by rw [hc, h2], by first | rfl | trivial, ?_⟩
    rw [hn, h4, hk]; push_cast; ring

theorem mmReady_nextCol {symm : Bool} {R i j : Nat} {s s' : MmS α} (h : MmReady symm R i j s) (hi : i + 1 = R)
    (hc : s'.c = (mmPos symm R s).c) (hn : s'.nc = (mmPos symm R s).nc)
    (hk : s'.k = s.k + 1) : MmReady symm R (mmLo symm (j + 1)) (j + 1) s' := by
  obtain ⟨h1, h2, h3, h4⟩ := h
  cases symm with
  | false =>
    simp only [Bool.false_eq_true, if_false] at h4
    refine mmReady_gen (by simp [mmLo]; omega) ?_
    rw [hk, h4, ← hi]; simp [mmLo]; ring
  | true =>
    simp only [if_true] at h4
    have he : s'.k = s'.nc := by rw [hk, hn, h4]; omega
    unfold MmReady mmPos
    simp only [if_true, if_pos he, mmLo]
    rw [hc, h2]
    refine ⟨by push_cast; rfl, by push_cast; rfl, by first | rfl | trivial, ?_⟩
    rw [← he]; push_cast; ring

/-- The elements in front of `(i, j)` in the order of the file are in place. -/
def MmPart (symm : Bool) (R C : Nat) (A : View) (a : Nat → Nat → α) (z : α) (i j : Nat) (m : Mem α) : Prop :=
  ∀ i' j', i' < R → j' < C → m (A.at' i' j') =
    some (if (j' < j ∨ (j' = j ∧ i' < i)) ∧ mmLo symm j' ≤ i' then a i' j' else z)

theorem mmPart_nextCol {symm : Bool} {R C : Nat} {A : View} {a : Nat → Nat → α} {z : α} {i j : Nat}
    {m : Mem α} (hi : R ≤ i) (h : MmPart symm R C A a z i j m) :
    MmPart symm R C A a z (mmLo symm (j + 1)) (j + 1) m := by
  intro i' j' h1 h2
  rw [h i' j' h1 h2]
  congr 1
  refine if_congr ?_ rfl rfl
  have : mmLo symm (j + 1) ≤ j + 1 := by unfold mmLo; split <;> omega
  constructor
  · rintro ⟨_, h4⟩; exact ⟨by omega, h4⟩
  · rintro ⟨h3, h4⟩
    refine ⟨?_, h4⟩
    rcases h3 with h3 | ⟨rfl, h3⟩
    · omega
    · exact absurd h4 (by omega)

variable {scan : List Int → ScanR α} {scan3 : List Int → Option (Option Int × Option Int × Option α)}
  {fmt : α → List Int}

theorem mmLoop_cons {t : MmType} {m : Int} {A : View} {nelem : Int} {l : List Int} {ls : List (List Int)}
    {s : MmS α} : mmLoop scan scan3 t m A nelem (l :: ls) s =
    if s.k < nelem then
      if l.head? = some 37 then mmLoop scan scan3 t m A nelem ls s
      else (do
        match ← mmLine scan scan3 t m A l s with
        | none => .ok (s, ls)
        | some s => mmLoop scan scan3 t m A nelem ls s)
    else .ok (s, ls) := rfl

/-- One element. -/
theorem mmLoop_elem {t : MmType} {R C : Nat} {A : View} {nelem : Int} {ls : List (List Int)} {s : MmS α}
    {a : Nat → Nat → α} {z : α} {i j : Nat}
    (ht : t.array = true) (hAr : A.rows = R) (hAc : A.cols = C) (hst : A.step = R)
    (hs : scan (fmt (a i j)) = .val (a i j)) (hp : (fmt (a i j)).head? ≠ some 37) (hi : i < R) (hj : j < C)
    (hlo : mmLo t.symm j ≤ i) (hk : s.k < nelem) (hr : MmReady t.symm R i j s)
    (hm : MmPart t.symm R C A a z i j s.mem) :
    ∃ s' : MmS α, mmLoop scan scan3 t R A nelem (fmt (a i j) :: ls) s = mmLoop scan scan3 t R A nelem ls s' ∧
      s'.r = (mmPos t.symm R s).r ∧ s'.c = (mmPos t.symm R s).c ∧ s'.nc = (mmPos t.symm R s).nc ∧
      s'.k = s.k + 1 ∧ MmPart t.symm R C A a z (i + 1) j s'.mem := by
  obtain ⟨h1, h2, h3, h4⟩ := hr
  have hpos : mmPos t.symm R { s with v := some (a i j) } = { mmPos t.symm R s with v := some (a i j) } := by
    unfold mmPos
    cases t.symm <;> simp only [Bool.false_eq_true, if_false, if_true]
    split <;> rfl
  have hmem : (mmPos t.symm R s).mem = s.mem := by
    unfold mmPos
    cases t.symm <;> simp only [Bool.false_eq_true, if_false, if_true]
    split <;> rfl
  have hcell : s.mem (A.at' i j) ≠ none := by rw [hm i j hi hj]; simp
  obtain ⟨old, hold⟩ : ∃ o, s.mem (A.at' i j) = some o := Option.ne_none_iff_exists'.mp hcell
  refine ⟨{ mmPos t.symm R s with v := some (a i j), mem := s.mem.set (A.at' i j) (a i j), k := s.k + 1 },
    ?_, rfl, rfl, rfl, rfl, ?_⟩
  · rw [mmLoop_cons, if_pos hk, if_neg hp]
    unfold mmLine
    rw [if_pos ht, hs]
    dsimp only
    rw [hpos]
    unfold mmStore
    dsimp only
    rw [if_pos ⟨by omega, by omega, by omega, by omega⟩, hmem, h1, h2, h3]
    simp only [Int.toNat_natCast]
    rw [wr_ok hold]
    rfl
  · intro i' j' h5 h6
    dsimp only
    by_cases he : i' = i ∧ j' = j
    · obtain ⟨rfl, rfl⟩ := he
      rw [Mem.set_same, if_pos ⟨by omega, hlo⟩]
    · have hne : A.at' i' j' ≠ A.at' i j := by
        unfold View.at'
        rw [hst]
        intro hc
        apply he
        have h7 : i' + j' * R = i + j * R := by omega
        have h8 := congrArg (· % R) h7
        simp only [Nat.add_mul_mod_self_right, Nat.mod_eq_of_lt h5, Nat.mod_eq_of_lt hi] at h8
        subst h8
        exact ⟨rfl, Nat.eq_of_mul_eq_mul_right (by omega) (by omega : j' * R = j * R)⟩
      rw [Mem.set_ne _ _ hne, hm i' j' h5 h6]
      congr 1
      refine if_congr ?_ rfl rfl
      constructor
      · rintro ⟨h7, h8⟩; exact ⟨by omega, h8⟩
      · rintro ⟨h7, h8⟩; exact ⟨by omega, h8⟩

/-- The rest of a column. -/
theorem mmLoop_col {t : MmType} {R C : Nat} {A : View} {nelem : Int} {ls : List (List Int)}
    {a : Nat → Nat → α} {z : α} {j : Nat}
    (ht : t.array = true) (hAr : A.rows = R) (hAc : A.cols = C) (hst : A.step = R)
    (hs : ∀ i, i < R → scan (fmt (a i j)) = .val (a i j) ∧ (fmt (a i j)).head? ≠ some 37) (hj : j < C) :
    ∀ (d i : Nat) (s : MmS α), i + d = R → 0 < d → mmLo t.symm j ≤ i → s.k + d ≤ nelem →
      MmReady t.symm R i j s → MmPart t.symm R C A a z i j s.mem →
    ∃ s' : MmS α, mmLoop scan scan3 t R A nelem ((List.range' i d).map (fun i => fmt (a i j)) ++ ls) s =
        mmLoop scan scan3 t R A nelem ls s' ∧ s'.k = s.k + d ∧
      MmReady t.symm R (mmLo t.symm (j + 1)) (j + 1) s' ∧
      MmPart t.symm R C A a z (mmLo t.symm (j + 1)) (j + 1) s'.mem := by
  intro d
  induction d with
  | zero => intro i s _ h; omega
  | succ d ih =>
    intro i s hd _ hlo hk hr hm
    have hsi := hs i (by omega)
    obtain ⟨s1, e1, hr1, hc1, hn1, hk1, hm1⟩ := mmLoop_elem (scan := scan) (scan3 := scan3) (fmt := fmt)
      (ls := (List.range' (i + 1) d).map (fun i => fmt (a i j)) ++ ls) (nelem := nelem)
      ht hAr hAc hst hsi.1 hsi.2 (by omega) hj hlo (by omega) hr hm
    rw [List.range'_succ, List.map_cons, List.cons_append, e1]
    rcases Nat.eq_zero_or_pos d with rfl | hpos
    · refine ⟨s1, by simp, by rw [hk1]; rfl, ?_, ?_⟩
      · exact mmReady_nextCol hr (by omega) hc1 hn1 hk1
      · exact mmPart_nextCol (by omega) hm1
    · obtain ⟨s2, e2, hk2, hr2, hm2⟩ := ih (i + 1) s1 (by omega) hpos (by omega) (by rw [hk1]; omega)
        (mmReady_next hr (by omega) hr1 hc1 hn1 hk1) hm1
      exact ⟨s2, e2, by rw [hk2, hk1]; push_cast; ring, hr2, hm2⟩

/-- All columns. -/
theorem mmLoop_cols {t : MmType} {R C : Nat} {A : View} {nelem : Int} {ls : List (List Int)}
    {a : Nat → Nat → α} {z : α}
    (ht : t.array = true) (hAr : A.rows = R) (hAc : A.cols = C) (hst : A.step = R)
    (hs : ∀ i j, i < R → j < C → scan (fmt (a i j)) = .val (a i j) ∧ (fmt (a i j)).head? ≠ some 37)
    (hsq : t.symm = true → C ≤ R) (hR : 0 < R) :
    ∀ (c j : Nat) (s : MmS α), j + c = C →
      s.k + (mmCols (fun i j => fmt (a i j)) R t.symm j c).length = nelem →
      MmReady t.symm R (mmLo t.symm j) j s → MmPart t.symm R C A a z (mmLo t.symm j) j s.mem →
    ∃ s' : MmS α, mmLoop scan scan3 t R A nelem (mmCols (fun i j => fmt (a i j)) R t.symm j c ++ ls) s =
        .ok (s', ls.drop 1) ∧ s'.k = nelem ∧
      MmPart t.symm R C A a z (mmLo t.symm C) C s'.mem := by
  intro c
  induction c with
  | zero =>
    intro j s hj hk hr hm
    have : j = C := by omega
    subst this
    simp only [mmCols, List.length_nil, Nat.cast_zero, add_zero] at hk
    refine ⟨s, ?_, hk, hm⟩
    simp only [mmCols, List.nil_append]
    cases ls with
    | nil => rfl
    | cons l ls => rw [mmLoop_cons, if_neg (by omega)]; rfl
  | succ c ih =>
    intro j s hj hk hr hm
    have hlo : mmLo t.symm j < R := by
      unfold mmLo; split
      · have := hsq (by assumption); omega
      · exact hR
    simp only [mmCols, List.length_append, List.length_map, List.length_range', Nat.cast_add] at hk
    simp only [mmCols, List.append_assoc]
    obtain ⟨s1, e1, hk1, hr1, hm1⟩ := mmLoop_col (scan := scan) (scan3 := scan3) (fmt := fmt)
      (ls := mmCols (fun i j => fmt (a i j)) R t.symm (j + 1) c ++ ls) (nelem := nelem)
      ht hAr hAc hst (fun i hi => hs i j hi (by omega)) (by omega) (R - mmLo t.symm j) (mmLo t.symm j) s
      (by omega) (by omega) le_rfl (by omega) hr hm
    obtain ⟨s2, e2, hk2, hm2⟩ := ih (j + 1) s1 (by omega) (by rw [hk1, ← hk]; ring) hr1 hm1
    exact ⟨s2, by rw [e1, e2], hk2, hm2⟩

/-- The banner. -/
theorem mmBanner_text (symm : Bool) (ls : List (List Int)) :
    mmBanner ((chars "%%Matrixmarket matrix array real " ++
      (if symm then chars "symmetric" else chars "general")) :: ls) =
    some ({ matrix := true, real := true, array := true, symm := symm, general := !symm }, ls) := by
  cases symm
  · rw [show (chars "%%Matrixmarket matrix array real " ++ (if false = true then chars "symmetric" else chars "general")) =
      chars "%%Matrixmarket matrix array real general" by decide]
    unfold mmBanner
    simp only [show (chars "%%Matrixmarket matrix array real general").length + 1 ≤ 511 by decide, if_true]
    rw [if_neg (by decide)]
    rw [show bannerLoop 0 (splitSp (chars "%%Matrixmarket matrix array real general")) {} =
      some { matrix := true, real := true, array := true, symm := false, general := true } by decide +kernel]
    rfl
  · rw [show (chars "%%Matrixmarket matrix array real " ++ (if true = true then chars "symmetric" else chars "general")) =
      chars "%%Matrixmarket matrix array real symmetric" by decide]
    unfold mmBanner
    simp only [show (chars "%%Matrixmarket matrix array real symmetric").length + 1 ≤ 511 by decide, if_true]
    rw [if_neg (by decide)]
    rw [show bannerLoop 0 (splitSp (chars "%%Matrixmarket matrix array real symmetric")) {} =
      some { matrix := true, real := true, array := true, symm := true, general := false } by decide +kernel]
    rfl

theorem dropWhile_digits_append {l r : List Int} {c : Int} (h : ∀ c ∈ l, 48 ≤ c ∧ c ≤ 57)
    (hc : isDigit c = false) : (l ++ c :: r).takeWhile isDigit = l ∧ (l ++ c :: r).dropWhile isDigit = c :: r := by
  have hd : ∀ x ∈ l, isDigit x = true := by
    intro x hx; have := h x hx; simp [isDigit]; omega
  constructor
  · rw [List.takeWhile_append_of_pos hd]; simp [hc]
  · rw [List.dropWhile_append_of_pos hd]; simp [hc]

theorem strtol_nat {k : Nat} {c : Int} {r : List Int} (hc : isDigit c = false) :
    strtol (natText k ++ c :: r) = ((k : Int), c :: r) := by
  obtain ⟨hne, hd⟩ := natText_digits k
  obtain ⟨h1, h2⟩ := dropWhile_digits_append (r := r) hd hc
  have hv := natText_val k
  generalize natText k = l at *
  cases l with
  | nil => exact absurd rfl hne
  | cons x l =>
    have hx := hd x (by simp)
    unfold strtol
    have hdw : (x :: l ++ c :: r).dropWhile (fun c => decide (c = 32 ∨ (9 ≤ c ∧ c ≤ 13))) = x :: l ++ c :: r := by
      rw [List.cons_append, List.dropWhile_cons_of_neg]
      simp; omega
    rw [hdw]
    simp only [List.cons_append] at h1 h2 ⊢
    rw [if_neg (by omega), h1, h2, hv]
    simp

theorem intText_nat (k : Nat) : intText (k : Int) = natText k := by
  unfold intText; simp

theorem mmSize_text {R C : Nat} {ls : List (List Int)} :
    mmSize false none ((intText R ++ 32 :: intText C) :: ls) = .ok (((R : Int), (C : Int), 0), ls) := by
  rw [intText_nat, intText_nat]
  obtain ⟨hne, hd⟩ := natText_digits R
  have e1 := strtol_nat (k := R) (c := 32) (r := natText C ++ [10]) (by decide)
  have e2 := strtol_nat (k := C) (c := 10) (r := []) (by decide)
  generalize natText R = l at *
  cases l with
  | nil => exact absurd rfl hne
  | cons x l =>
    have hx := hd x (by simp)
    unfold mmSize
    rw [if_neg (by simp; omega)]
    unfold mmSizeLine
    simp only [List.cons_append, List.append_assoc] at e1 e2 ⊢
    rw [if_pos (by right; simp [isDigit]; omega), e1]
    simp only [skip1, Res.ok_bind, e2, Bool.false_eq_true, if_false]

end Armas
