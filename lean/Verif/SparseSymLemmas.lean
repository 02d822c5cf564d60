import Verif.SparseSym
import Verif.SparseSolve
import Verif.Tri

/-!
# Lemmas on the symmetric sparse product
-/

namespace Armas

open Finset

variable {α : Type} {A : Sp α} {n d N : Nat} {f : Nat → Ent α} {ptr ix : Mem Nat} {v : Mem α} {j D : Nat}

theorem skipUpTo_spec (H : Compressed ptr ix v n d N f) (S : SortedDiag n N f) (hD : DiagAt N f j D) {p : Nat} (h1 : pst f N j ≤ p)
    (h2 : p ≤ D) {q : Nat} (hq : D - p ≤ q) : skipUpTo ix j q p = .ok D := by
  induction hk : D - p generalizing p q with
  | zero =>
    have : p = D := by omega
    subst this
    cases q with
    | zero => simp only [skipUpTo, rd_ok (H.ix p hD.lt), Res.ok_bind]; rfl
    | succ q =>
      simp only [skipUpTo, rd_ok (H.ix p hD.lt), Res.ok_bind, hD.min, lt_irrefl, if_false]
      rfl
  | succ k ih =>
    obtain ⟨q, rfl⟩ : ∃ k, q = k + 1 := ⟨q - 1, by omega⟩
    have hp : p < N := by have := hD.lt; omega
    have hm := (H.mem_seg hp).mp ⟨h1, lt_of_le_of_lt h2 (hD.seg H).2⟩
    have hlt := (hD.below S hp hm).mp (by omega)
    simp only [skipUpTo, rd_ok (H.ix p hp), Res.ok_bind, hlt, if_true]
    exact ih (by omega) (by omega) (by omega) (by omega)

theorem skipDownTo_spec (H : Compressed ptr ix v n d N f) (S : SortedDiag n N f) (hD : DiagAt N f j D) {p : Nat}
    (h1 : p ≤ pst f N (j + 1)) (h2 : D < p) : skipDownTo ix j (pst f N j) p = .ok D := by
  induction p with
  | zero => omega
  | succ p ih =>
    have hp : p < N := lt_of_lt_of_le h1 (H.ptr_le _)
    simp only [skipDownTo, rd_ok (H.ix p hp), Res.ok_bind]
    by_cases c : D = p
    · subst c; rw [hD.min, if_neg (by omega)]; rfl
    · have hm := (H.mem_seg hp).mp ⟨le_trans (hD.seg H).1 (by omega), h1⟩
      rw [if_pos ⟨(hD.above S hp hm).mp (by omega), le_trans (hD.seg H).1 (by omega)⟩]
      exact ih (by omega) (by omega)

variable [Field α] {y x : Nat} {m : Mem α} {yv xv : Nat → α}

/-- What column `j` adds: the part of column `j` with indices in `T`, and its mirror image. -/
def symAdd (N : Nat) (f : Nat → Ent α) (T : Finset Nat) (x : Nat → α) (j : Nat) (i : Nat) : α :=
  (if i ∈ T then dense N f j i * x j else 0) + (if i = j then x j * dense N f j j + ∑ l ∈ T, dense N f j l * x l else 0)

theorem symPair_loop (H : Compressed A.ptr A.ix A.v n n N f) {a b : Nat} (hab : a ≤ b) (hb : b ≤ N) (hy : VecAt m y n yv) (hx : VecAt m x n xv)
    (hd : ∀ i j, i < n → j < n → y + i ≠ x + j) (ax yk : α) :
    Runs (forUp a b 1 (fun k st => symPair A y x ax k st) (yk, m)) (fun r =>
      r.2.1 = yk + ∑ p ∈ Ico a b, (f p).2.2 * xv (f p).2.1 ∧
      VecAt r.2.2 y n (fun i => yv i + ax * ∑ p ∈ Ico a b, (f p).2.2 * (if (f p).2.1 = i then 1 else 0)) ∧ Frame (rng y n) m r.2.2) := by
  refine Runs.forUp1 (fun q st => st.1 = yk + ∑ p ∈ Ico a q, (f p).2.2 * xv (f p).2.1 ∧
      VecAt st.2 y n (fun i => yv i + ax * ∑ p ∈ Ico a q, (f p).2.2 * (if (f p).2.1 = i then 1 else 0)) ∧ Frame (rng y n) m st.2) hab
    ⟨by simp, hy.congr fun i _ => by simp, Frame.refl _ _⟩ ?_ (fun st h => h)
  rintro q ⟨s, m'⟩ h1 h2 ⟨k1, k2, k3⟩
  have hq : q < N := lt_of_lt_of_le h2 hb
  have hc := H.minor q hq
  unfold symPair
  refine Runs.rd_bind (H.ix q hq) (Runs.rd_bind (hx.frame k3 hd _ hc) (Runs.rd_bind (H.v q hq) (Runs.rd_bind (k2 _ hc)
    (Runs.wr_bind (k2 _ hc) (Runs.pure ⟨?_, ?_, k3.setR hc _⟩)))))
  · dsimp only at k1 ⊢
    rw [sum_Ico_succ_top h1, k1]; ring
  · refine (k2.set _ _).congr fun i _ => ?_
    by_cases c : i = (f q).2.1
    · subst c
      rw [Function.update_self, sum_Ico_succ_top h1, if_pos rfl]; ring
    · rw [Function.update_of_ne c, sum_Ico_succ_top h1, if_neg (fun h => c h.symm)]; ring

private theorem pick (T : Finset Nat) (j i : Nat) :
    ∑ l ∈ T, dense N f j l * (if l = i then (1 : α) else 0) = if i ∈ T then dense N f j i else 0 := by
  by_cases c : i ∈ T
  · rw [if_pos c, sum_eq_single i]
    · rw [if_pos rfl, mul_one]
    · intro l _ hl; rw [if_neg hl, mul_zero]
    · intro h; exact absurd c h
  · rw [if_neg c, sum_eq_zero]
    intro l hl; rw [if_neg, mul_zero]; rintro rfl; exact c hl

private theorem sym_fin {T : Finset Nat} {S1 : α} {S2 : Nat → α} (alpha : α) (hT : j ∉ T) (hj : j < n) (h1 : S1 = ∑ l ∈ T, dense N f j l * xv l)
    (h2 : ∀ i, S2 i = ∑ l ∈ T, dense N f j l * (if l = i then (1 : α) else 0)) {m1 : Mem α}
    (k2 : VecAt m1 y n (fun i => yv i + alpha * xv j * S2 i)) (k3 : Frame (rng y n) m m1) {yk : α} (k1 : yk = xv j * dense N f j j + S1) :
    Runs (rd m1 (y + j) >>= fun t => wr m1 (y + j) (t + alpha * yk)) (fun m' => VecAt m' y n (fun i => yv i + alpha * symAdd N f T xv j i) ∧
      Frame (rng y n) m m') := by
  refine Runs.rd_bind (k2 j hj) (Runs.wr (k2 j hj) ⟨(k2.set j _).congr fun i _ => ?_, k3.setR hj _⟩)
  unfold symAdd
  by_cases c : i = j
  · subst c
    rw [Function.update_self]; dsimp only; rw [h2, pick, if_neg hT, if_neg hT, if_pos rfl, k1, h1]; ring
  · rw [Function.update_of_ne c, h2, pick, if_neg c]
    by_cases c' : i ∈ T
    · rw [if_pos c', if_pos c']; ring
    · rw [if_neg c', if_neg c']; ring

theorem lsymStep_spec (H : Compressed A.ptr A.ix A.v n n N f) (S : SortedDiag n N f) (hD : DiagAt N f j D) (hj : j < n) (alpha : α)
    (hy : VecAt m y n yv) (hx : VecAt m x n xv) (hd : ∀ i j, i < n → j < n → y + i ≠ x + j) :
    Runs (lsymStep A y x alpha j m) (fun m' => VecAt m' y n (fun i => yv i + alpha * symAdd N f (Ico (j + 1) n) xv j i) ∧
      Frame (rng y n) m m') := by
  have hs := hD.seg H
  unfold lsymStep
  refine Runs.rd_bind (hx j hj) (Runs.rd_bind (H.ptr j (by omega)) (Runs.rd_bind (H.ptr (j + 1) hj) ?_))
  dsimp only
  rw [skipUpTo_spec H S hD (le_refl _) hs.1 (Nat.sub_le_sub_right (le_of_lt hs.2) _), Res.ok_bind]
  refine Runs.rd_bind (H.ix D hD.lt) ?_
  rw [if_pos hD.min]
  simp only [rd_ok (hx _ (H.minor D hD.lt)), rd_ok (H.v D hD.lt), Res.ok_bind, Res.pure_eq]
  refine Runs.bind (symPair_loop H hs.2 (H.ptr_le _) hy hx hd (alpha * xv j) _) ?_
  rintro ⟨_, yk, m1⟩ ⟨k1, k2, k3⟩
  dsimp only at k1 k2 k3 ⊢
  refine sym_fin alpha (by simp) hj (sum_above H S hD xv) (fun i => sum_above H S hD (fun l => if l = i then 1 else 0)) k2 k3 ?_
  rw [k1, hD.min, dense_diag S hD]

theorem usymStep_spec (H : Compressed A.ptr A.ix A.v n n N f) (S : SortedDiag n N f) (hD : DiagAt N f j D) (hj : j < n) (alpha : α)
    (hy : VecAt m y n yv) (hx : VecAt m x n xv) (hd : ∀ i j, i < n → j < n → y + i ≠ x + j) :
    Runs (usymStep A y x alpha j m) (fun m' => VecAt m' y n (fun i => yv i + alpha * symAdd N f (range j) xv j i) ∧
      Frame (rng y n) m m') := by
  have hs := hD.seg H
  unfold usymStep
  refine Runs.rd_bind (hx j hj) (Runs.rd_bind (H.ptr (j + 1) hj) (Runs.rd_bind (H.ptr j (by omega)) ?_))
  dsimp only
  rw [skipDownTo_spec H S hD (le_refl _) hs.2, Res.ok_bind]
  refine Runs.rd_bind (H.ix D hD.lt) ?_
  rw [if_pos hD.min]
  simp only [rd_ok (hx _ (H.minor D hD.lt)), rd_ok (H.v D hD.lt), Res.ok_bind, Res.pure_eq]
  refine Runs.bind (symPair_loop H hs.1 (le_of_lt hD.lt) hy hx hd (alpha * xv j) _) ?_
  rintro ⟨_, yk, m1⟩ ⟨k1, k2, k3⟩
  dsimp only at k1 k2 k3 ⊢
  refine sym_fin alpha (by simp) hj (sum_below H S hD xv) (fun i => sum_below H S hD (fun l => if l = i then 1 else 0)) k2 k3 ?_
  rw [k1, hD.min, dense_diag S hD]

variable [DecidableEq α]

theorem symScale_spec (beta : α) (hy : VecAt m y n yv) :
    Runs (symScale n beta y m) (fun m' => VecAt m' y n (fun i => beta * yv i) ∧ Frame (rng y n) m m') := by
  unfold symScale
  split_ifs with h
  · refine Runs.bind (P := fun r : Nat × Mem α => VecAt r.2 y n (fun k => beta * yv k) ∧ Frame (rng y n) m r.2) ?_ (fun r hr => Runs.pure hr)
    refine Runs.forUp1 (fun i m' => VecAt m' y n (fun k => if k < i then beta * yv k else yv k) ∧ Frame (rng y n) m m') (Nat.zero_le _)
      ⟨hy.congr fun k _ => by simp, Frame.refl _ _⟩ ?_ (fun m' h => ⟨h.1.congr fun k hk => by simp [hk], h.2⟩)
    rintro i m' - hi ⟨h1, h2⟩
    refine Runs.rd_bind (h1 i hi) (Runs.wr (h1 i hi) ⟨(h1.set i _).congr fun k _ => ?_, h2.setR hi _⟩)
    by_cases c : k = i
    · subst c; simp [mul_comm]
    · rw [Function.update_of_ne c]
      by_cases c' : k < i
      · rw [if_pos c', if_pos (by omega)]
      · rw [if_neg c', if_neg (by omega)]
  · rw [not_not] at h
    exact Runs.pure ⟨hy.congr fun k _ => by rw [h, one_mul], Frame.refl _ _⟩

theorem cscMvmultLsym_spec (H : Compressed A.ptr A.ix A.v n n N f) (S : SortedDiag n N f) (hr : A.rows = n) (hc : A.cols = n)
    (beta alpha : α) (hy : VecAt m y n yv) (hx : VecAt m x n xv) (hd : ∀ i j, i < n → j < n → y + i ≠ x + j) :
    Runs (cscMvmultLsym beta y alpha A x m) (fun m' =>
      VecAt m' y n (fun i => beta * yv i + alpha * ∑ j ∈ range n, symAdd N f (Ico (j + 1) n) xv j i) ∧ Frame (rng y n) m m') := by
  unfold cscMvmultLsym
  rw [hr, hc]
  refine Runs.bind (symScale_spec beta hy) ?_
  rintro m1 ⟨h1, h2⟩
  refine Runs.bind (P := fun r : Nat × Mem α => VecAt r.2 y n (fun i => beta * yv i + alpha * ∑ j ∈ range n, symAdd N f (Ico (j + 1) n) xv j i) ∧
    Frame (rng y n) m r.2) ?_ (fun r hr => Runs.pure hr)
  refine Runs.forUp1 (fun q m' => VecAt m' y n (fun i => beta * yv i + alpha * ∑ j ∈ range q, symAdd N f (Ico (j + 1) n) xv j i) ∧
    Frame (rng y n) m m') (Nat.zero_le _) ⟨h1.congr fun i _ => by simp, h2⟩ ?_ (fun m' h => h)
  rintro j m' - hj ⟨h1, h2⟩
  obtain ⟨D, a, b, c⟩ := S.diag j hj
  refine (lsymStep_spec H S ⟨a, b, c⟩ hj alpha h1 (hx.frame h2 hd) hd).mono ?_
  rintro m2 ⟨k1, k2⟩
  exact ⟨k1.congr fun i _ => by rw [sum_range_succ]; ring, h2.trans k2⟩

theorem cscMvmultUsym_spec (H : Compressed A.ptr A.ix A.v n n N f) (S : SortedDiag n N f) (hr : A.rows = n) (hc : A.cols = n)
    (beta alpha : α) (hy : VecAt m y n yv) (hx : VecAt m x n xv) (hd : ∀ i j, i < n → j < n → y + i ≠ x + j) :
    Runs (cscMvmultUsym beta y alpha A x m) (fun m' =>
      VecAt m' y n (fun i => beta * yv i + alpha * ∑ j ∈ range n, symAdd N f (range j) xv j i) ∧ Frame (rng y n) m m') := by
  unfold cscMvmultUsym
  rw [hr, hc]
  refine Runs.bind (symScale_spec beta hy) ?_
  rintro m1 ⟨h1, h2⟩
  refine Runs.forDown (fun q m' => VecAt m' y n (fun i => beta * yv i + alpha * ∑ j ∈ Ico q n, symAdd N f (range j) xv j i) ∧
    Frame (rng y n) m m') ⟨h1.congr fun i _ => by simp, h2⟩ ?_ (fun m' h => by rw [range_eq_Ico]; exact h)
  rintro j m' hj ⟨h1, h2⟩
  obtain ⟨D, a, b, c⟩ := S.diag j hj
  refine (usymStep_spec H S ⟨a, b, c⟩ hj alpha h1 (hx.frame h2 hd) hd).mono ?_
  rintro m2 ⟨k1, k2⟩
  exact ⟨k1.congr fun i _ => by rw [sum_eq_sum_Ico_succ_bot hj]; ring, h2.trans k2⟩

/-- The columns together: the symmetric matrix whose triangle `minor ≥ major` is given. -/
theorem symAdd_lower {i : Nat} (hi : i < n) (x : Nat → α) :
    ∑ j ∈ range n, symAdd N f (Ico (j + 1) n) x j i = ∑ j ∈ range n, symm true (dense N f) i j * x j := by
  unfold symAdd
  rw [sum_add_distrib, sum_ite_eq, if_pos (mem_range.mpr hi)]
  rw [← sum_range_add_sum_Ico _ (le_of_lt hi), ← sum_range_add_sum_Ico (fun j => symm true (dense N f) i j * x j) (le_of_lt hi),
    sum_eq_sum_Ico_succ_bot hi (fun j => symm true (dense N f) i j * x j)]
  have e1 : ∑ j ∈ range i, (if i ∈ Ico (j + 1) n then dense N f j i * x j else 0) = ∑ j ∈ range i, symm true (dense N f) i j * x j := by
    refine sum_congr rfl fun j hj => ?_
    rw [mem_range] at hj
    rw [if_pos (mem_Ico.mpr ⟨hj, hi⟩)]
    unfold symm; rw [if_neg (by simp; omega)]
  have e2 : ∑ j ∈ Ico i n, (if i ∈ Ico (j + 1) n then dense N f j i * x j else 0) = 0 := by
    refine sum_eq_zero fun j hj => ?_
    rw [mem_Ico] at hj
    rw [if_neg (by rw [mem_Ico]; omega)]
  have e3 : ∑ l ∈ Ico (i + 1) n, dense N f i l * x l = ∑ j ∈ Ico (i + 1) n, symm true (dense N f) i j * x j := by
    refine sum_congr rfl fun j hj => ?_
    rw [mem_Ico] at hj
    unfold symm; rw [if_pos (by simp; omega)]
  have e4 : symm true (dense N f) i i = dense N f i i := by unfold symm; simp
  rw [e1, e2, e3, e4]; ring

/-- The columns together: the symmetric matrix whose triangle `minor ≤ major` is given. -/
theorem symAdd_upper {i : Nat} (hi : i < n) (x : Nat → α) :
    ∑ j ∈ range n, symAdd N f (range j) x j i = ∑ j ∈ range n, symm false (dense N f) i j * x j := by
  unfold symAdd
  rw [sum_add_distrib, sum_ite_eq, if_pos (mem_range.mpr hi)]
  rw [← sum_range_add_sum_Ico _ (le_of_lt hi), ← sum_range_add_sum_Ico (fun j => symm false (dense N f) i j * x j) (le_of_lt hi),
    sum_eq_sum_Ico_succ_bot hi (fun j => symm false (dense N f) i j * x j), sum_eq_sum_Ico_succ_bot hi]
  have e1 : ∑ j ∈ range i, (if i ∈ range j then dense N f j i * x j else 0) = 0 := by
    refine sum_eq_zero fun j hj => ?_
    rw [mem_range] at hj
    rw [if_neg (by rw [mem_range]; omega)]
  have e2 : ∑ j ∈ Ico (i + 1) n, (if i ∈ range j then dense N f j i * x j else 0) = ∑ j ∈ Ico (i + 1) n, symm false (dense N f) i j * x j := by
    refine sum_congr rfl fun j hj => ?_
    rw [mem_Ico] at hj
    rw [if_pos (mem_range.mpr (by omega))]
    unfold symm; rw [if_neg (by simp; omega)]
  have e3 : ∑ l ∈ range i, dense N f i l * x l = ∑ j ∈ range i, symm false (dense N f) i j * x j := by
    refine sum_congr rfl fun j hj => ?_
    rw [mem_range] at hj
    unfold symm; rw [if_pos (by simp; omega)]
  have e4 : symm false (dense N f) i i = dense N f i i := by unfold symm; simp
  have e5 : (if i ∈ range i then dense N f i i * x i else 0) = 0 := by simp
  rw [e1, e2, e3, e4, e5]; ring

/-! ## Column vectors -/

theorem View.colSize {X : View} (h : X.cols = 1) : X.size = X.rows := by unfold View.size; rw [h, Nat.mul_one]

theorem View.colVat {X : View} (h : X.cols = 1) {k : Nat} (hk : k < X.rows) : X.vat k = X.base + k := by
  unfold View.vat View.inc
  split
  · have : k = 0 := by omega
    subst this; simp
  · simp

omit [Field α] [DecidableEq α] in
theorem vecAt_col {m : Mem α} {X : View} {g : Nat → α} (h : X.cols = 1) : VecAt m X.base X.rows g ↔ HoldsV m X g := by
  unfold VecAt HoldsV
  rw [View.colSize h]
  constructor
  · intro H k hk; rw [View.colVat h hk]; exact H k hk
  · intro H k hk; rw [← View.colVat h hk]; exact H k hk

theorem View.colFoot {X : View} (h : X.cols = 1) : X.foot = rng X.base X.rows := by
  ext q
  constructor
  · rintro ⟨i, j, hi, hj, rfl⟩
    rw [h] at hj
    have : j = 0 := by omega
    subst this
    refine ⟨?_, ?_⟩ <;> simp only [View.at'] <;> omega
  · rintro ⟨h1, h2⟩
    exact ⟨q - X.base, 0, by omega, by omega, by simp only [View.at']; omega⟩

theorem View.colDisj {X Y : View} (hX : X.cols = 1) (hY : Y.cols = 1) (hd : Disjoint Y.foot X.foot) :
    ∀ i j, i < Y.rows → j < X.rows → Y.base + i ≠ X.base + j := by
  intro i j hi hj e
  rw [View.colFoot hX, View.colFoot hY] at hd
  have h := (@Set.disjoint_left Nat (rng Y.base Y.rows) (rng X.base X.rows)).mp hd
  exact @h (Y.base + i) (by constructor <;> omega) (by constructor <;> omega)

omit [DecidableEq α] in
theorem symm_flip (up : Bool) (e : Nat → Ent α) (i j : Nat) :
    symm up (dense N (fun p => (e p).flip)) i j = symm (!up) (dense N e) i j := by
  have hf : ∀ i j, dense N (fun p => (e p).flip) i j = dense N e j i := by
    intro i j
    unfold dense
    refine sum_congr rfl fun p _ => ?_
    simp only [Ent.flip]
    congr 1
    exact propext and_comm
  unfold symm
  simp only [hf]
  cases up with
  | true =>
    by_cases c : i ≤ j
    · by_cases c' : i = j
      · subst c'; simp
      · simp only [if_pos c, if_true, Bool.not_true, Bool.false_eq_true, if_false]; rw [if_neg (by omega)]
    · simp only [if_neg c, if_true, Bool.not_true, Bool.false_eq_true, if_false]; rw [if_pos (by omega)]
  | false =>
    by_cases c : j ≤ i
    · by_cases c' : i = j
      · subst c'; simp
      · simp only [if_pos c, if_true, Bool.not_false, Bool.false_eq_true, if_false]; rw [if_neg (by omega)]
    · simp only [if_neg c, if_true, Bool.not_false, Bool.false_eq_true, if_false]; rw [if_pos (by omega)]

end Armas
