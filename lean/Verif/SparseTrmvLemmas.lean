import Verif.SparseTrmv
import Verif.SparseSolve

/-!
# The eight products with a sparse triangular matrix
-/

namespace Armas

open Finset

variable {α : Type} [Field α] {A : Sp α} {n N : Nat} {f : Nat → Ent α} {j D b : Nat} {m : Mem α} {x : Nat → α}

/-- `x` after the updates with the elements at the positions in `[a, c)`. -/
def scatPart (f : Nat → Ent α) (alpha xj : α) (x : Nat → α) (S : Finset Nat) (k : Nat) : α :=
  x k + alpha * (∑ p ∈ S, (f p).2.2 * (if (f p).2.1 = k then 1 else 0)) * xj

theorem addAt_spec (H : Compressed A.ptr A.ix A.v n n N f) (hx : VecAt m b n x) {p : Nat} (hp : p < N) (alpha xj : α) :
    Runs (addAt A b alpha xj p m) (fun m' => VecAt m' b n (Function.update x (f p).2.1 (x (f p).2.1 + alpha * (f p).2.2 * xj)) ∧
      Frame (rng b n) m m') := by
  unfold addAt
  have hc := H.minor p hp
  exact Runs.rd_bind (H.ix p hp) (Runs.rd_bind (hx _ hc) (Runs.rd_bind (H.v p hp)
    (Runs.wr (hx _ hc) ⟨hx.set _ _, (Frame.refl _ _).setR hc _⟩)))

theorem addAt_part (H : Compressed A.ptr A.ix A.v n n N f) {S : Finset Nat} {alpha xj : α}
    (hx : VecAt m b n (scatPart f alpha xj x S)) {p : Nat} (hp : p < N) (hS : p ∉ S) :
    Runs (addAt A b alpha xj p m) (fun m' => VecAt m' b n (scatPart f alpha xj x (insert p S)) ∧ Frame (rng b n) m m') := by
  refine (addAt_spec H hx hp alpha xj).mono fun m' h => ⟨h.1.congr fun k _ => ?_, h.2⟩
  unfold scatPart
  rw [sum_insert hS]
  by_cases c : k = (f p).2.1
  · subst c; rw [Function.update_self, if_pos rfl]; ring
  · rw [Function.update_of_ne c, if_neg (fun h => c h.symm)]; ring

theorem addWhile_spec (H : Compressed A.ptr A.ix A.v n n N f) (alpha xj : α) {lim a B : Nat} :
    ∀ {q p : Nat} {m : Mem α}, a ≤ p → p ≤ B → B ≤ p + q → p + q ≤ N → (∀ r, p ≤ r → r < B → (f r).2.1 < lim) → (B = p + q ∨ lim ≤ (f B).2.1) →
      VecAt m b n (scatPart f alpha xj x (Ico a p)) →
      Runs (addWhile A b alpha xj lim q p m) (fun r => r.1 = B ∧ VecAt r.2 b n (scatPart f alpha xj x (Ico a B)) ∧ Frame (rng b n) m r.2) := by
  intro q
  induction q with
  | zero =>
    intro p m ha h1 h2 hN hlt hB hx
    have : p = B := by omega
    subst this
    exact Runs.pure ⟨rfl, hx, Frame.refl _ _⟩
  | succ q ih =>
    intro p m ha h1 h2 hN hlt hB hx
    unfold addWhile
    refine Runs.rd_bind (H.ix p (by omega)) ?_
    by_cases c : p = B
    · subst c
      rw [if_neg (by have := hB.resolve_left (by omega); omega)]
      exact Runs.pure ⟨rfl, hx, Frame.refl _ _⟩
    · rw [if_pos (hlt p (le_refl _) (by omega))]
      refine Runs.bind (addAt_part H hx (p := p) (by omega) (by simp)) fun m1 h => ?_
      rw [show insert p (Ico a p) = Ico a (p + 1) by ext k; simp; omega] at h
      exact (ih (by omega) (by omega) (by omega) (by omega) (fun r k1 k2 => hlt r (by omega) k2) (by
        rcases hB with e | e
        · left; omega
        · right; exact e) h.1).mono fun r hr => ⟨hr.1, hr.2.1, h.2.trans hr.2.2⟩

theorem mulAt_spec (H : Compressed A.ptr A.ix A.v n n N f) (hx : VecAt m b n x) {p : Nat} (hp : p < N) (xv : α) :
    Runs (mulAt A b m p xv) (fun r => r = xv + (f p).2.2 * x (f p).2.1) := by
  unfold mulAt
  exact Runs.rd_bind (H.v p hp) (Runs.rd_bind (H.ix p hp) (Runs.rd_bind (hx _ (H.minor p hp)) (Runs.pure rfl)))

theorem mulWhile_spec (H : Compressed A.ptr A.ix A.v n n N f) (hx : VecAt m b n x) {lim B : Nat} :
    ∀ {q p : Nat} (xv : α), p ≤ B → B ≤ p + q → p + q ≤ N → (∀ r, p ≤ r → r < B → (f r).2.1 < lim) → (B = p + q ∨ lim ≤ (f B).2.1) →
      Runs (mulWhile A b m lim q p xv) (fun r => r = xv + ∑ r ∈ Ico p B, (f r).2.2 * x (f r).2.1) := by
  intro q
  induction q with
  | zero =>
    intro p xv h1 h2 hN hlt hB
    have : p = B := by omega
    subst this
    exact Runs.pure (by simp)
  | succ q ih =>
    intro p xv h1 h2 hN hlt hB
    unfold mulWhile
    refine Runs.rd_bind (H.ix p (by omega)) ?_
    by_cases c : p = B
    · subst c
      rw [if_neg (by have := hB.resolve_left (by omega); omega)]
      exact Runs.pure (by simp)
    · rw [if_pos (hlt p (le_refl _) (by omega))]
      refine Runs.bind (mulAt_spec H hx (p := p) (by omega) xv) fun xv1 h => ?_
      refine (ih xv1 (by omega) (by omega) (by omega) (fun r k1 k2 => hlt r (by omega) k2) (by
        rcases hB with e | e
        · left; omega
        · right; exact e)).mono fun r hr => ?_
      rw [hr, h, sum_eq_sum_Ico_succ_bot (show p < B by omega)]; ring

theorem addDown_spec (H : Compressed A.ptr A.ix A.v n n N f) (alpha xj : α) {p0 B c : Nat} :
    ∀ {p : Nat} {m : Mem α}, p ≤ c → p0 < B → B ≤ p → p ≤ N → (∀ r, B ≤ r → r < p → j < (f r).2.1) → (f (B - 1)).2.1 ≤ j →
      VecAt m b n (scatPart f alpha xj x (Ico p c)) →
      Runs (addDown A b alpha xj j p0 p m) (fun r => r.1 = B ∧ VecAt r.2 b n (scatPart f alpha xj x (Ico B c)) ∧ Frame (rng b n) m r.2) := by
  intro p
  induction p with
  | zero => intro m _ h0 h1; omega
  | succ p ih =>
    intro m hc h0 h1 hN hlt hB hx
    unfold addDown
    rw [if_pos (by omega)]
    refine Runs.rd_bind (H.ix p (by omega)) ?_
    by_cases e : p + 1 = B
    · subst e
      rw [if_neg (by simpa using hB)]
      exact Runs.pure ⟨rfl, hx, Frame.refl _ _⟩
    · rw [if_pos (hlt p (by omega) (by omega))]
      refine Runs.bind (addAt_part H hx (p := p) (by omega) (by simp)) fun m1 h => ?_
      refine (ih (by omega) h0 (by omega) (by omega) (fun r k1 k2 => hlt r k1 (by omega)) hB ?_).mono fun r hr => ⟨hr.1, hr.2.1, h.2.trans hr.2.2⟩
      have : insert p (Ico (p + 1) c) = Ico p c := by ext k; simp; omega
      rw [← this]; exact h.1

theorem trmDiag_spec (H : Compressed A.ptr A.ix A.v n n N f) (S : SortedDiag n N f) (hD : DiagAt N f j D) (hx : VecAt m b n x) (hj : j < n)
    (alpha xj : α) (unit : Bool) {k : Option Nat} (hk : unit = false → k = some D) :
    Runs (trmDiag A b j alpha xj unit k m) (fun m' => VecAt m' b n (Function.update x j (alpha * (dg N f unit j * xj))) ∧ Frame (rng b n) m m') := by
  unfold trmDiag dg
  cases unit with
  | true =>
    simp only [if_true]
    refine Runs.wr (hx j hj) ⟨?_, (Frame.refl _ _).setR hj _⟩
    rw [one_mul]
    exact hx.set j _
  | false =>
    rw [hk rfl]
    simp only [Bool.false_eq_true, if_false]
    refine Runs.rd_bind (H.ix D hD.lt) ?_
    rw [if_pos hD.min]
    refine Runs.rd_bind (H.v D hD.lt) (Runs.wr (hx j hj) ⟨?_, (Frame.refl _ _).setR hj _⟩)
    rw [dense_diag S hD, ← mul_assoc]
    exact hx.set j _

/-- Result of a column step. -/
def scat (N : Nat) (f : Nat → Ent α) (unit : Bool) (alpha : α) (T : Finset Nat) (x : Nat → α) (j k : Nat) : α :=
  if k = j then alpha * (dg N f unit j * x j) else if k ∈ T then x k + alpha * (dense N f j k * x j) else x k

/-- Result of a row step. -/
def gath (N : Nat) (f : Nat → Ent α) (unit : Bool) (alpha : α) (T : Finset Nat) (x : Nat → α) (j : Nat) : Nat → α :=
  Function.update x j (alpha * (dg N f unit j * x j + ∑ m ∈ T, dense N f j m * x m))

private theorem ind (T : Finset Nat) (k : Nat) : ∑ m ∈ T, dense N f j m * (if m = k then 1 else 0) = if k ∈ T then dense N f j k else 0 := by
  simp only [mul_ite, mul_one, mul_zero]
  rw [sum_ite_eq' T k]

private theorem scat_eq {alpha xj : α} {S T : Finset Nat} {unit : Bool} (hxj : xj = x j)
    (h : ∀ k, k ≠ j → ∑ p ∈ S, (f p).2.2 * (if (f p).2.1 = k then 1 else 0) = ∑ m ∈ T, dense N f j m * (if m = k then 1 else 0)) (k : Nat) :
    Function.update (scatPart f alpha xj x S) j (alpha * (dg N f unit j * xj)) k = scat N f unit alpha T x j k := by
  unfold scat
  by_cases c : k = j
  · subst c; rw [Function.update_self, if_pos rfl, hxj]
  · rw [Function.update_of_ne c, if_neg c]
    unfold scatPart
    rw [h k c, ind]
    by_cases c' : k ∈ T
    · rw [if_pos c', if_pos c', hxj]; ring
    · rw [if_neg c', if_neg c']; ring

private theorem part_below (H : Compressed A.ptr A.ix A.v n n N f) (S : SortedDiag n N f) (hD : DiagAt N f j D) (k : Nat) :
    ∑ p ∈ Ico (pst f N j) D, (f p).2.2 * (if (f p).2.1 = k then 1 else 0) = ∑ m ∈ range j, dense N f j m * (if m = k then (1 : α) else 0) :=
  sum_below H S hD (fun m => if m = k then 1 else 0)

private theorem part_above (H : Compressed A.ptr A.ix A.v n n N f) (S : SortedDiag n N f) (hD : DiagAt N f j D) (k : Nat) :
    ∑ p ∈ Ico (D + 1) (pst f N (j + 1)), (f p).2.2 * (if (f p).2.1 = k then 1 else 0) =
      ∑ m ∈ Ico (j + 1) n, dense N f j m * (if m = k then (1 : α) else 0) :=
  sum_above H S hD (fun m => if m = k then 1 else 0)

theorem scatPart_empty (f : Nat → Ent α) (alpha xj : α) (x : Nat → α) (a k : Nat) : scatPart f alpha xj x (Ico a a) k = x k := by
  simp [scatPart]

theorem cscTrmUnStep_spec (H : Compressed A.ptr A.ix A.v n n N f) (S : SortedDiag n N f) (hD : DiagAt N f j D) (hx : VecAt m b n x)
    (hj : j < n) (alpha : α) (unit : Bool) :
    Runs (cscTrmUnStep A b alpha unit j m) (fun m' => VecAt m' b n (scat N f unit alpha (range j) x j) ∧ Frame (rng b n) m m') := by
  unfold cscTrmUnStep
  have hs := hD.seg H
  have he : pst f N (j + 1) ≤ N := H.ptr_le (j + 1)
  have hseg : ∀ r, pst f N j ≤ r → r < pst f N (j + 1) → (f r).1 = j := fun r h1 h2 => (H.mem_seg (lt_of_lt_of_le h2 he)).mp ⟨h1, h2⟩
  refine Runs.rd_bind (hx j hj) (Runs.rd_bind (ptr_lo H hj) (Runs.rd_bind (ptr_hi H hj) ?_))
  refine Runs.bind (addWhile_spec H alpha (x j) (B := D + 1) (a := pst f N j) (p := pst f N j) (q := pst f N (j + 1) - pst f N j) (le_refl _) (by omega) (by omega) (by omega) ?_ ?_
    (hx.congr fun k _ => (scatPart_empty ..).symm)) ?_
  · intro r h1 h2
    rcases Nat.lt_succ_iff_lt_or_eq.mp h2 with c | c
    · have hr : r < N := by omega
      have := (hD.below S hr (hseg _ (h1) (by omega))).mp c
      omega
    · subst c; rw [hD.min]; omega
  · by_cases c : D + 1 = pst f N (j + 1)
    · left; omega
    · right
      have hr : D + 1 < N := by omega
      exact (hD.above S hr (hseg _ (by omega) (by omega))).mp (by omega)
  · rintro ⟨k, m1⟩ ⟨h1, h2, h3⟩
    dsimp only at h1 h2 h3 ⊢
    subst h1
    refine (trmDiag_spec H S hD h2 hj alpha (x j) unit (fun _ => rfl)).mono fun m2 h => ⟨h.1.congr fun k _ => ?_, h3.trans h.2⟩
    refine scat_eq rfl (fun k hk => ?_) k
    rw [sum_Ico_succ_top hs.1, hD.min, if_neg (fun h => hk h.symm), mul_zero, add_zero, part_below H S hD]

theorem csrTrmLtStep_spec (H : Compressed A.ptr A.ix A.v n n N f) (S : SortedDiag n N f) (hD : DiagAt N f j D) (hx : VecAt m b n x)
    (hj : j < n) (alpha : α) (unit : Bool) :
    Runs (csrTrmLtStep A b alpha unit j m) (fun m' => VecAt m' b n (scat N f unit alpha (range j) x j) ∧ Frame (rng b n) m m') := by
  unfold csrTrmLtStep
  have hs := hD.seg H
  have he : pst f N (j + 1) ≤ N := H.ptr_le (j + 1)
  have hseg : ∀ r, pst f N j ≤ r → r < pst f N (j + 1) → (f r).1 = j := fun r h1 h2 => (H.mem_seg (lt_of_lt_of_le h2 he)).mp ⟨h1, h2⟩
  refine Runs.rd_bind (hx j hj) (Runs.rd_bind (ptr_lo H hj) (Runs.rd_bind (ptr_hi H hj) ?_))
  refine Runs.bind (addWhile_spec H alpha (x j) (B := D) (a := pst f N j) (p := pst f N j) (q := pst f N (j + 1) - pst f N j) (le_refl _) (by omega) (by omega) (by omega) ?_ ?_
    (hx.congr fun k _ => (scatPart_empty ..).symm)) ?_
  · intro r h1 h2
    have hr : r < N := by omega
    exact (hD.below S hr (hseg _ (h1) (by omega))).mp h2
  · right; rw [hD.min]
  · rintro ⟨k, m1⟩ ⟨h1, h2, h3⟩
    dsimp only at h1 h2 h3 ⊢
    subst h1
    refine (trmDiag_spec H S hD h2 hj alpha (x j) unit (fun _ => rfl)).mono fun m2 h => ⟨h.1.congr fun k _ => ?_, h3.trans h.2⟩
    exact scat_eq rfl (fun k hk => part_below H S hD k) k

theorem csrTrmUtStep_spec (H : Compressed A.ptr A.ix A.v n n N f) (S : SortedDiag n N f) (hD : DiagAt N f j D) (hx : VecAt m b n x)
    (hj : j < n) (alpha : α) (unit : Bool) :
    Runs (csrTrmUtStep A b alpha unit j m) (fun m' => VecAt m' b n (scat N f unit alpha (Ico (j + 1) n) x j) ∧ Frame (rng b n) m m') := by
  unfold csrTrmUtStep
  have hs := hD.seg H
  have he : pst f N (j + 1) ≤ N := H.ptr_le (j + 1)
  have hseg : ∀ r, pst f N j ≤ r → r < pst f N (j + 1) → (f r).1 = j := fun r h1 h2 => (H.mem_seg (lt_of_lt_of_le h2 he)).mp ⟨h1, h2⟩
  refine Runs.rd_bind (hx j hj) (Runs.rd_bind (ptr_hi H hj) (Runs.rd_bind (ptr_lo H hj) ?_))
  refine Runs.bind (addDown_spec H alpha (x j) (B := D + 1) (c := pst f N (j + 1)) (p := pst f N (j + 1)) (p0 := pst f N j) (le_refl _) (by omega) (by omega) (by omega) ?_
    (by rw [Nat.add_sub_cancel, hD.min]) (hx.congr fun k _ => (scatPart_empty ..).symm)) ?_
  · intro r h1 h2
    have hr : r < N := by omega
    exact (hD.above S hr (hseg _ (by omega) (h2))).mp (by omega)
  · rintro ⟨k, m1⟩ ⟨h1, h2, h3⟩
    dsimp only at h1 h2 h3 ⊢
    subst h1
    refine (trmDiag_spec H S hD h2 hj alpha (x j) unit (fun _ => rfl)).mono fun m2 h => ⟨h.1.congr fun k _ => ?_, h3.trans h.2⟩
    exact scat_eq rfl (fun k hk => part_above H S hD k) k

theorem cscTrmLnStep_spec (H : Compressed A.ptr A.ix A.v n n N f) (S : SortedDiag n N f) (hN : A.nnz = N) (hD : DiagAt N f j D)
    (hx : VecAt m b n x) (hj : j < n) (alpha : α) :
    Runs (cscTrmLnStep A b alpha false j m) (fun m' => VecAt m' b n (scat N f false alpha (Ico (j + 1) n) x j) ∧ Frame (rng b n) m m') := by
  unfold cscTrmLnStep
  have hs := hD.seg H
  have he : pst f N (j + 1) ≤ N := H.ptr_le (j + 1)
  have hseg : ∀ r, pst f N j ≤ r → r < pst f N (j + 1) → (f r).1 = j := fun r h1 h2 => (H.mem_seg (lt_of_lt_of_le h2 he)).mp ⟨h1, h2⟩
  refine Runs.rd_bind (hx j hj) (Runs.rd_bind (ptr_lo H hj) ?_)
  rw [show plusUnit j false = j from rfl, scan_lo H S hD hN, Res.ok_bind]
  refine Runs.rd_bind (ptr_hi H hj) ?_
  refine Runs.bind (P := fun r : Nat × Mem α => VecAt r.2 b n (scatPart f alpha (x j) x (Ico D (pst f N (j + 1)))) ∧ Frame (rng b n) m r.2) ?_ ?_
  · refine Runs.forUp1 (fun q m' => VecAt m' b n (scatPart f alpha (x j) x (Ico D q)) ∧ Frame (rng b n) m m') (by omega)
      ⟨hx.congr fun k _ => (scatPart_empty ..).symm, Frame.refl _ _⟩ ?_ (fun m' h => h)
    rintro q m' h1 h2 ⟨k1, k2⟩
    refine (addAt_part H k1 (p := q) (by omega) (by simp)).mono fun m2 h => ⟨?_, k2.trans h.2⟩
    have : insert q (Ico D q) = Ico D (q + 1) := by ext k; simp; omega
    rw [← this]; exact h.1
  · rintro ⟨_, m1⟩ ⟨h2, h3⟩
    dsimp only at h2 h3 ⊢
    refine (trmDiag_spec H S hD h2 hj alpha (x j) false (fun _ => rfl)).mono fun m2 h => ⟨h.1.congr fun k _ => ?_, h3.trans h.2⟩
    refine scat_eq rfl (fun k hk => ?_) k
    rw [sum_eq_sum_Ico_succ_bot hs.2, hD.min, if_neg (fun h => hk h.symm), mul_zero, zero_add, part_above H S hD]

theorem trmSkipStep_spec (H : Compressed A.ptr A.ix A.v n n N f) (S : SortedDiag n N f) (hN : A.nnz = N) (hD : DiagAt N f j D)
    (hx : VecAt m b n x) (hj : j < n) (alpha : α) :
    Runs (trmSkipStep A b alpha false j m) (fun m' => VecAt m' b n (gath N f false alpha (Ico (j + 1) n) x j) ∧ Frame (rng b n) m m') := by
  unfold trmSkipStep
  have hs := hD.seg H
  have he : pst f N (j + 1) ≤ N := H.ptr_le (j + 1)
  have hseg : ∀ r, pst f N j ≤ r → r < pst f N (j + 1) → (f r).1 = j := fun r h1 h2 => (H.mem_seg (lt_of_lt_of_le h2 he)).mp ⟨h1, h2⟩
  refine Runs.rd_bind (hx j hj) (Runs.rd_bind (ptr_lo H hj) ?_)
  rw [show plusUnit j false = j from rfl, scan_lo H S hD hN, Res.ok_bind]
  refine Runs.rd_bind (ptr_hi H hj) ?_
  refine Runs.bind (P := fun r : Nat × α => r.2 = ∑ p ∈ Ico D (pst f N (j + 1)), (f p).2.2 * x (f p).2.1) ?_ ?_
  · refine Runs.forUp1 (fun q xv => xv = ∑ p ∈ Ico D q, (f p).2.2 * x (f p).2.1) (by omega) (by simp) ?_ (fun _ h => h)
    rintro q xv h1 h2 h
    refine (mulAt_spec H hx (p := q) (by omega) xv).mono fun r hr => ?_
    rw [hr, h, sum_Ico_succ_top h1]
  · rintro ⟨_, xv⟩ h
    dsimp only at h ⊢
    refine Runs.wr (hx j hj) ⟨(hx.set j _).congr fun k _ => ?_, (Frame.refl _ _).setR hj _⟩
    unfold gath dg
    rw [h, sum_eq_sum_Ico_succ_bot hs.2, hD.min, sum_above H S hD, dense_diag S hD]
    simp

theorem trmHeadStep_spec (H : Compressed A.ptr A.ix A.v n n N f) (S : SortedDiag n N f) (hD : DiagAt N f j D)
    (hx : VecAt m b n x) (hj : j < n) (alpha : α) (unit : Bool) :
    Runs (trmHeadStep A b alpha unit j m) (fun m' => VecAt m' b n (gath N f unit alpha (range j) x j) ∧ Frame (rng b n) m m') := by
  unfold trmHeadStep
  have hs := hD.seg H
  have he : pst f N (j + 1) ≤ N := H.ptr_le (j + 1)
  have hseg : ∀ r, pst f N j ≤ r → r < pst f N (j + 1) → (f r).1 = j := fun r h1 h2 => (H.mem_seg (lt_of_lt_of_le h2 he)).mp ⟨h1, h2⟩
  refine Runs.rd_bind (hx j hj) (Runs.rd_bind (ptr_lo H hj) (Runs.rd_bind (ptr_hi H hj) ?_))
  have hlow : ∀ r, pst f N j ≤ r → r < D → (f r).2.1 < j := fun r h1 h2 =>
    (hD.below S (by omega : r < N) (hseg _ (h1) (by omega))).mp h2
  refine Runs.bind (P := fun xv => xv = dg N f unit j * x j + ∑ m ∈ range j, dense N f j m * x m) ?_ ?_
  · cases unit with
    | true =>
      simp only [if_true]
      refine (mulWhile_spec H hx (p := pst f N j) (q := pst f N (j + 1) - pst f N j) (x j) (B := D) (by omega) (by omega) (by omega) hlow (Or.inr (by rw [hD.min]))).mono fun r hr => ?_
      rw [hr, sum_below H S hD]; simp [dg]
    | false =>
      simp only [Bool.false_eq_true, if_false]
      refine (mulWhile_spec H hx (p := pst f N j) (q := pst f N (j + 1) - pst f N j) 0 (B := D + 1) (by omega) (by omega) (by omega) ?_ ?_).mono fun r hr => ?_
      · intro r h1 h2
        rcases Nat.lt_succ_iff_lt_or_eq.mp h2 with c | c
        · have := hlow r h1 c; omega
        · subst c; rw [hD.min]; omega
      · by_cases c : D + 1 = pst f N (j + 1)
        · left; omega
        · right
          have hr : D + 1 < N := by omega
          exact (hD.above S hr (hseg _ (by omega) (by omega))).mp (by omega)
      · rw [hr, sum_Ico_succ_top hs.1, sum_below H S hD, hD.min]
        simp only [dg, Bool.false_eq_true, if_false]
        rw [dense_diag S hD]; ring
  · rintro xv rfl
    exact Runs.wr (hx j hj) ⟨hx.set j _, (Frame.refl _ _).setR hj _⟩

/-! ## The loops -/

/-- Element `i` of the product with row `i` of the matrix. -/
def rowProd (N : Nat) (f : Nat → Ent α) (unit : Bool) (alpha : α) (T : Nat → Finset Nat) (x : Nat → α) (i : Nat) : α :=
  alpha * (dg N f unit i * x i + ∑ m ∈ T i, dense N f i m * x m)

/-- Element `i` of the product with column `i` of the transposed matrix. -/
def colProd (N : Nat) (f : Nat → Ent α) (unit : Bool) (alpha : α) (T : Nat → Finset Nat) (x : Nat → α) (i : Nat) : α :=
  alpha * (dg N f unit i * x i + ∑ m ∈ T i, dense N f m i * x m)

variable {step : Nat → Mem α → Res (Mem α)} {alpha : α} {unit : Bool}

theorem trmUp_gath (hstep : ∀ j m x, j < n → VecAt m b n x → Runs (step j m) (fun m' => VecAt m' b n (gath N f unit alpha (Ico (j + 1) n) x j) ∧
      Frame (rng b n) m m')) (hx : VecAt m b n x) :
    Runs (trmUp n step m) (fun m' => VecAt m' b n (rowProd N f unit alpha (fun i => Ico (i + 1) n) x) ∧ Frame (rng b n) m m') := by
  unfold trmUp
  refine Runs.bind (P := fun r : Nat × Mem α => VecAt r.2 b n (rowProd N f unit alpha (fun i => Ico (i + 1) n) x) ∧ Frame (rng b n) m r.2) ?_
    (fun r hr => Runs.pure hr)
  refine Runs.forUp1 (fun j m' => VecAt m' b n (fun i => if i < j then rowProd N f unit alpha (fun i => Ico (i + 1) n) x i else x i) ∧
    Frame (rng b n) m m') (Nat.zero_le _) ⟨hx.congr fun k _ => by simp, Frame.refl _ _⟩ ?_ (fun m' h => ⟨h.1.congr fun k hk => by simp [hk], h.2⟩)
  rintro j m' - hj ⟨h1, h2⟩
  refine (hstep j m' _ hj h1).mono fun m2 h => ⟨h.1.congr fun k hk => ?_, h2.trans h.2⟩
  unfold gath
  by_cases c : k = j
  · subst c
    rw [Function.update_self]
    dsimp only
    rw [if_neg (by omega), if_pos (by omega)]
    unfold rowProd
    congr 2
    refine sum_congr rfl fun i hi => ?_
    rw [mem_Ico] at hi
    rw [if_neg (by omega)]
  · rw [Function.update_of_ne c]
    by_cases c' : k < j
    · rw [if_pos c', if_pos (by omega)]
    · rw [if_neg c', if_neg (by omega)]

theorem trmDown_gath (hstep : ∀ j m x, j < n → VecAt m b n x → Runs (step j m) (fun m' => VecAt m' b n (gath N f unit alpha (range j) x j) ∧
      Frame (rng b n) m m')) (hx : VecAt m b n x) :
    Runs (forDown n step m) (fun m' => VecAt m' b n (rowProd N f unit alpha (fun i => range i) x) ∧ Frame (rng b n) m m') := by
  refine Runs.forDown (fun j m' => VecAt m' b n (fun i => if j ≤ i then rowProd N f unit alpha (fun i => range i) x i else x i) ∧
    Frame (rng b n) m m') ⟨hx.congr fun k hk => by rw [if_neg (by omega)], Frame.refl _ _⟩ ?_ (fun m' h => ⟨h.1.congr fun k hk => by simp, h.2⟩)
  rintro j m' hj ⟨h1, h2⟩
  refine (hstep j m' _ hj h1).mono fun m2 h => ⟨h.1.congr fun k hk => ?_, h2.trans h.2⟩
  unfold gath
  by_cases c : k = j
  · subst c
    rw [Function.update_self]
    dsimp only
    rw [if_neg (by omega), if_pos (by omega)]
    unfold rowProd
    congr 2
    refine sum_congr rfl fun i hi => ?_
    rw [mem_range] at hi
    rw [if_neg (by omega)]
  · rw [Function.update_of_ne c]
    by_cases c' : j + 1 ≤ k
    · rw [if_pos c', if_pos (by omega)]
    · rw [if_neg c', if_neg (by omega)]

theorem trmUp_scat (hstep : ∀ j m x, j < n → VecAt m b n x → Runs (step j m) (fun m' => VecAt m' b n (scat N f unit alpha (range j) x j) ∧
      Frame (rng b n) m m')) (hx : VecAt m b n x) :
    Runs (trmUp n step m) (fun m' => VecAt m' b n (colProd N f unit alpha (fun i => Ico (i + 1) n) x) ∧ Frame (rng b n) m m') := by
  unfold trmUp
  refine Runs.bind (P := fun r : Nat × Mem α => VecAt r.2 b n (colProd N f unit alpha (fun i => Ico (i + 1) n) x) ∧ Frame (rng b n) m r.2) ?_
    (fun r hr => Runs.pure hr)
  refine Runs.forUp1 (fun j m' => VecAt m' b n (fun i => if i < j then colProd N f unit alpha (fun i => Ico (i + 1) j) x i else x i) ∧
    Frame (rng b n) m m') (Nat.zero_le _) ⟨hx.congr fun k _ => by simp, Frame.refl _ _⟩ ?_ (fun m' h => ⟨h.1.congr fun k hk => by simp [hk], h.2⟩)
  rintro j m' - hj ⟨h1, h2⟩
  refine (hstep j m' _ hj h1).mono fun m2 h => ⟨h.1.congr fun k hk => ?_, h2.trans h.2⟩
  unfold scat
  by_cases c : k = j
  · subst c
    rw [if_pos rfl]
    dsimp only
    rw [if_neg (by omega), if_pos (by omega)]
    unfold colProd
    simp
  · rw [if_neg c]
    dsimp only
    rw [if_neg (show ¬ j < j by omega)]
    by_cases c' : k < j
    · rw [if_pos (by simpa using c'), if_pos c', if_pos (by omega)]
      unfold colProd
      rw [sum_Ico_succ_top (show k + 1 ≤ j by omega)]; ring
    · rw [if_neg (by simpa using c'), if_neg c', if_neg (by omega)]

theorem trmDown_scat (hstep : ∀ j m x, j < n → VecAt m b n x → Runs (step j m) (fun m' => VecAt m' b n (scat N f unit alpha (Ico (j + 1) n) x j) ∧
      Frame (rng b n) m m')) (hx : VecAt m b n x) :
    Runs (forDown n step m) (fun m' => VecAt m' b n (colProd N f unit alpha (fun i => range i) x) ∧ Frame (rng b n) m m') := by
  refine Runs.forDown (fun j m' => VecAt m' b n (fun i => if j ≤ i then colProd N f unit alpha (fun i => Ico j i) x i else x i) ∧
    Frame (rng b n) m m') ⟨hx.congr fun k hk => by rw [if_neg (by omega)], Frame.refl _ _⟩ ?_
    (fun m' h => ⟨h.1.congr fun k hk => by rw [if_pos (Nat.zero_le _)]; unfold colProd; dsimp only; rw [range_eq_Ico], h.2⟩)
  rintro j m' hj ⟨h1, h2⟩
  refine (hstep j m' _ hj h1).mono fun m2 h => ⟨h.1.congr fun k hk => ?_, h2.trans h.2⟩
  unfold scat
  by_cases c : k = j
  · subst c
    rw [if_pos rfl]
    dsimp only
    rw [if_neg (by omega), if_pos (by omega)]
    unfold colProd
    simp
  · rw [if_neg c]
    dsimp only
    rw [if_neg (show ¬ j + 1 ≤ j by omega)]
    by_cases c' : j + 1 ≤ k
    · rw [if_pos (by rw [mem_Ico]; omega), if_pos c', if_pos (by omega)]
      unfold colProd
      rw [sum_eq_sum_Ico_succ_bot (show j < k by omega)]; ring
    · rw [if_neg (by rw [mem_Ico]; omega), if_neg c', if_neg (by omega)]

end Armas
