import Verif.BiredLemmas

/-!
# The steps of the reduction to bidiagonal form
-/

namespace Armas

open Finset

theorem isHouseVec_of {p : Nat} {nonneg : Bool} {a t b : ℝ} {x v : Nat → ℝ}
    (h : (∑ k ∈ range p, x k ^ 2 = 0 ∧ t = 0 ∧ b = a ∧ v = x) ∨ (0 < ∑ k ∈ range p, x k ^ 2 ∧ IsHouse false nonneg p a x v t b)) :
    IsHouseVec (p + 1) (fun l => if l = 0 then a else x (l - 1)) (fun l => if l = 0 then 1 else v (l - 1)) t b := by
  have hsum : ∀ c : Nat → ℝ, ∑ l ∈ range (p + 1), (if l = 0 then 1 else v (l - 1)) * c l = c 0 + ∑ l ∈ range p, v l * c (1 + l) := by
    intro c
    rw [sum_range_succ', add_comm]
    simp [add_comm]
  refine ⟨rfl, ?_, ?_, fun e => ?_⟩
  · rcases h with ⟨-, h, -⟩ | ⟨-, hI⟩
    · exact Or.inl h
    · right
      rw [← hI.norm]
      congr 1
      have := hsum fun l => if l = 0 then 1 else v (l - 1)
      simp only [pow_two]
      rw [this, if_pos rfl]
      congr 1
      refine sum_congr rfl fun l _ => ?_
      rw [if_neg (by omega), Nat.add_sub_cancel_left]
  · intro i hi
    beta_reduce
    rw [hsum]
    rw [sum_congr rfl fun l _ => show v l * (if 1 + l = 0 then a else x (1 + l - 1)) = v l * x l by
      rw [if_neg (by omega), Nat.add_sub_cancel_left], if_pos (rfl : (0 : Nat) = 0)]
    rcases h with ⟨hS, rfl, rfl, -⟩ | ⟨-, hI⟩
    · by_cases c : i = 0
      · subst c; simp
      · rw [if_neg c, if_neg c, if_neg c]
        have := (sum_eq_zero_iff_of_nonneg (fun l _ => sq_nonneg (x l))).mp hS (i - 1) (mem_range.mpr (by omega))
        rw [pow_eq_zero_iff two_ne_zero] at this
        rw [this]; ring
    · have hf := hI.first
      simp only [hhSigma] at hf
      by_cases c : i = 0
      · rw [if_pos c, if_pos c, if_pos c]
        simp at hf
        linear_combination -hf
      · rw [if_neg c, if_neg c, if_neg c]
        have := hI.rest (i - 1) (by omega)
        simp only [hhSigma] at this
        linear_combination -v (i - 1) * hf - this
  · obtain rfl : p = 0 := by omega
    rcases h with ⟨-, h, -⟩ | ⟨h, -⟩
    · exact h
    · simp at h

/-- Matrix after `k` steps: zeros in the place of the vectors. -/
def bdMid {α : Type} [CommRing α] (k : Nat) (f : Nat → Nat → α) (i j : Nat) : α := if (j < k ∧ j < i) ∨ (i < k ∧ i + 1 < j) then 0 else f i j

/-- Result of step `k`. -/
structure BdStep (M N k : Nat) (f f' : Nat → Nat → ℝ) (s t : ℝ) : Prop where
  keepc : ∀ i j, i < M → j < k → f' i j = f i j
  keepr : ∀ i j, i < k → j < N → f' i j = f i j
  norms : s = 0 ∨ s * ∑ l ∈ range M, qrw f' k l ^ 2 = 2
  normt : k + 1 < N → t = 0 ∨ t * ∑ l ∈ range N, hessw (fun i j => f' j i) k l ^ 2 = 2
  app : ∀ i j, i < M → j < N →
    reflRt N t (hessw (fun i j => f' j i) k) (refl M s (qrw f' k) (bdMid k f)) i j = bdMid (k + 1) f' i j
  lasts : M = k + 1 → s = 0
  lastt : N = k + 2 → t = 0

/-- The matrix after step `k`. -/
noncomputable def bdNew (M N k : Nat) (f : Nat → Nat → ℝ) (v : Nat → ℝ) (s b : ℝ) (w : Nat → ℝ) (t c : ℝ) (i j : Nat) : ℝ :=
  if i < k ∨ j < k then f i j else if j = k then (if i = k then b else v (i - k - 1))
  else if i = k then (if j = k + 1 then c else w (j - k - 1))
  else f i j - s * (v (i - k - 1) * bdY (M - k - 1) (fun i j => f (k + 1 + i) (k + 1 + j)) v (fun j => f k (k + 1 + j)) (j - k - 1)) -
    t * (bdZ (M - k - 1) (N - k - 1) (fun i j => f (k + 1 + i) (k + 1 + j)) v (fun j => f k (k + 1 + j)) w s (i - k - 1) * w (j - k - 1))

theorem sum_qrwv {n k : Nat} {v u : Nat → ℝ} (hk : k < n) (hu : ∀ i, i < n → u i = if i < k then 0 else if i = k then 1 else v (i - k - 1)) (c : Nat → ℝ) :
    ∑ l ∈ range n, u l * c l = c k + ∑ l ∈ range (n - k - 1), v l * c (k + 1 + l) := by
  obtain ⟨p, rfl⟩ : ∃ p, n = k + 1 + p := ⟨n - k - 1, by omega⟩
  rw [sum_range_add, sum_range_succ, sum_eq_zero (s := range k) fun l hl => by
    have := mem_range.mp hl
    rw [hu l (by omega), if_pos (by omega), zero_mul], zero_add, hu k (by omega), if_neg (lt_irrefl k), if_pos rfl, one_mul,
    show k + 1 + p - k - 1 = p by omega]
  congr 1
  refine sum_congr rfl fun l hl => ?_
  have := mem_range.mp hl
  rw [hu _ (by omega), if_neg (by omega), if_neg (by omega), show k + 1 + l - k - 1 = l by omega]

theorem bdNew_step {M N k : Nat} {f : Nat → Nat → ℝ} {v w : Nat → ℝ} {s b t c : ℝ} (hk : k < M) (hk' : k < N)
    (H1 : IsHouseVec (M - k - 1 + 1) (fun l => if l = 0 then f k k else f (k + 1 + (l - 1)) k) (fun l => if l = 0 then 1 else v (l - 1)) s b)
    (H2 : 0 < N - k - 1 → IsHouseVec (N - k - 1)
      (fun j => f k (k + 1 + j) - s * bdY (M - k - 1) (fun i j => f (k + 1 + i) (k + 1 + j)) v (fun j => f k (k + 1 + j)) j) w t c) :
    BdStep M N k f (bdNew M N k f v s b w t c) s t := by
  set p := M - k - 1 with hp
  set q := N - k - 1 with hq
  set f' := bdNew M N k f v s b w t c with hf'
  have hu : ∀ i, i < M → qrw f' k i = if i < k then 0 else if i = k then 1 else v (i - k - 1) := by
    intro i _
    unfold qrw
    by_cases c1 : i < k
    · rw [if_pos c1, if_pos c1]
    · rw [if_neg c1, if_neg c1]
      by_cases c2 : i = k
      · rw [if_pos c2, if_pos c2]
      · rw [if_neg c2, if_neg c2, hf']
        unfold bdNew
        rw [if_neg (by omega), if_pos rfl, if_neg c2]
  have hw : ∀ i, i < N → hessw (fun i j => f' j i) k i = if i ≤ k then 0 else w (i - k - 1) := by
    intro i hi
    unfold hessw
    by_cases c1 : i ≤ k
    · rw [if_pos c1, if_pos c1]
    · rw [if_neg c1, if_neg c1]
      by_cases c2 : i = k + 1
      · rw [if_pos c2, c2, show k + 1 - k - 1 = 0 by omega, (H2 (by omega)).one]
      · rw [if_neg c2, hf']
        unfold bdNew
        beta_reduce
        rw [if_neg (by omega), if_neg (by omega), if_pos rfl, if_neg c2]
  have su := sum_qrwv hk hu
  have sw := sum_hessw hk' hw
  rw [← hp] at su
  rw [← hq] at sw
  have s1 : ∀ c : Nat → ℝ, ∑ l ∈ range (p + 1), (if l = 0 then 1 else v (l - 1)) * c l = c 0 + ∑ l ∈ range p, v l * c (1 + l) := by
    intro c
    rw [sum_range_succ', add_comm]
    simp [add_comm]
  refine ⟨?_, ?_, ?_, ?_, ?_, fun h => H1.last (by omega), fun h => (H2 (by omega)).last (by omega)⟩
  · intro i j _ hj
    rw [hf']; unfold bdNew
    rw [if_pos (Or.inr hj)]
  · intro i j hi _
    rw [hf']; unfold bdNew
    rw [if_pos (Or.inl hi)]
  · rcases H1.norm with h | h
    · exact Or.inl h
    · right
      rw [← h]
      congr 1
      simp only [pow_two]
      rw [su, s1, if_pos rfl, hu k hk, if_neg (lt_irrefl k), if_pos rfl]
      congr 1
      refine sum_congr rfl fun l hl => ?_
      have := mem_range.mp hl
      rw [hu _ (by omega), if_neg (by omega), if_neg (by omega), if_neg (by omega), show k + 1 + l - k - 1 = l by omega, Nat.add_sub_cancel_left]
  · intro hN
    rcases (H2 (by omega)).norm with h | h
    · exact Or.inl h
    · right
      rw [← h]
      congr 1
      simp only [pow_two]
      rw [sw]
      refine sum_congr rfl fun l hl => ?_
      have := mem_range.mp hl
      rw [hw _ (by omega), if_neg (by omega), show k + 1 + l - k - 1 = l by omega]
  · -- after the first reflector
    have R1 : ∀ i j, i < k → refl M s (qrw f' k) (bdMid k f) i j = bdMid k f i j := by
      intro i j hi
      unfold refl
      rw [hu i (by omega), if_pos hi]; ring
    have R2 : ∀ i j, k ≤ i → i < M → j < k → refl M s (qrw f' k) (bdMid k f) i j = 0 := by
      intro i j hi hM hj
      unfold refl
      rw [su, show bdMid k f k j = 0 from if_pos (by omega), sum_eq_zero fun l _ => by
        rw [show bdMid k f (k + 1 + l) j = 0 from if_pos (by omega), mul_zero], show bdMid k f i j = 0 from if_pos (by omega)]
      ring
    have R3 : ∀ i, k ≤ i → i < M → refl M s (qrw f' k) (bdMid k f) i k = if i = k then b else 0 := by
      intro i hi hM
      unfold refl
      have e : ∀ l, k ≤ l → bdMid k f l k = f l k := fun l hl => if_neg (by omega)
      rw [su, e k (le_refl k), e i hi, hu i hM, if_neg (by omega), sum_congr rfl fun l _ => by rw [e (k + 1 + l) (by omega)]]
      have := H1.app (i - k) (by omega)
      beta_reduce at this
      rw [s1, if_pos (rfl : (0 : Nat) = 0), sum_congr rfl fun l _ => show v l * (if 1 + l = 0 then f k k else f (k + 1 + (1 + l - 1)) k) = v l * f (k + 1 + l) k by
        rw [if_neg (by omega), Nat.add_sub_cancel_left]] at this
      by_cases c1 : i = k
      · subst c1
        rw [Nat.sub_self, if_pos rfl, if_pos rfl, if_pos rfl] at this
        rw [if_pos rfl, if_pos rfl]
        exact this
      · rw [if_neg (by omega), if_neg (by omega), if_neg (by omega), show k + 1 + (i - k - 1) = i by omega] at this
        rw [if_neg c1, if_neg c1]
        exact this
    have R4 : ∀ i j, k ≤ i → i < M → k < j → refl M s (qrw f' k) (bdMid k f) i j =
        f i j - s * ((if i = k then 1 else v (i - k - 1)) * bdY p (fun i j => f (k + 1 + i) (k + 1 + j)) v (fun j => f k (k + 1 + j)) (j - k - 1)) := by
      intro i j hi hM hj
      unfold refl
      have e : ∀ l, k ≤ l → bdMid k f l j = f l j := fun l hl => if_neg (by omega)
      rw [su, e k (le_refl k), e i hi, hu i hM, if_neg (by omega), sum_congr rfl fun l _ => by rw [e (k + 1 + l) (by omega), mul_comm]]
      unfold bdY
      beta_reduce
      rw [show k + 1 + (j - k - 1) = j by omega]
      ring
    intro i j hi hj
    have hres : reflRt N t (hessw (fun i j => f' j i) k) (refl M s (qrw f' k) (bdMid k f)) i j = refl M s (qrw f' k) (bdMid k f) i j -
        t * (∑ l ∈ range q, refl M s (qrw f' k) (bdMid k f) i (k + 1 + l) * w l) * hessw (fun i j => f' j i) k j := by
      unfold reflRt
      rw [sw]
    rw [hres, hw j hj]
    by_cases c1 : j ≤ k
    · rw [if_pos c1, mul_zero, sub_zero]
      by_cases c2 : i < k
      · rw [R1 i j c2]
        unfold bdMid
        have e : f' i j = f i j := by rw [hf']; unfold bdNew; rw [if_pos (Or.inl c2)]
        rw [e]
        by_cases c3 : (j < k ∧ j < i) ∨ (i < k ∧ i + 1 < j)
        · rw [if_pos c3, if_pos (by omega)]
        · rw [if_neg c3, if_neg (by omega)]
      · by_cases c3 : j = k
        · subst c3
          rw [R3 i (by omega) hi]
          unfold bdMid
          by_cases c4 : i = j
          · subst c4
            rw [if_pos rfl, if_neg (by omega), hf']
            unfold bdNew
            rw [if_neg (by omega), if_pos rfl, if_pos rfl]
          · rw [if_neg c4, if_pos (by omega)]
        · rw [R2 i j (by omega) hi (by omega)]
          exact (if_pos (by omega)).symm
    · rw [if_neg c1]
      have H := H2 (by omega)
      by_cases c2 : i < k
      · rw [R1 i j c2, sum_eq_zero fun l _ => by
          rw [R1 i _ c2, show bdMid k f i (k + 1 + l) = 0 from if_pos (by omega), zero_mul], show bdMid k f i j = 0 from if_pos (by omega),
          show bdMid (k + 1) f' i j = 0 from if_pos (by omega)]
        ring
      · by_cases c3 : i = k
        · subst c3
          have := H.app (j - i - 1) (by omega)
          beta_reduce at this
          rw [show i + 1 + (j - i - 1) = j by omega] at this
          rw [R4 i j (le_refl i) hi (by omega), if_pos rfl, one_mul, sum_congr rfl fun l _ => by
            rw [R4 i (i + 1 + l) (le_refl i) hi (by omega), if_pos rfl, one_mul, show i + 1 + l - i - 1 = l by omega, mul_comm]]
          have e : bdMid (i + 1) f' i j = if j - i - 1 = 0 then c else 0 := by
            unfold bdMid
            by_cases c4 : j = i + 1
            · rw [if_neg (by omega), if_pos (by omega), hf']
              unfold bdNew
              rw [if_neg (by omega), if_neg (by omega), if_pos rfl, if_pos c4]
            · rw [if_pos (by omega), if_neg (by omega)]
          rw [e, ← this]
          ring
        · have e : bdMid (k + 1) f' i j = f' i j := if_neg (by omega)
          rw [e, R4 i j (by omega) hi (by omega), if_neg c3, sum_congr rfl fun l _ => by
            rw [R4 i (k + 1 + l) (by omega) hi (by omega), if_neg c3, show k + 1 + l - k - 1 = l by omega]]
          have e2 : ∑ l ∈ range q, (f i (k + 1 + l) - s * (v (i - k - 1) * bdY p (fun i j => f (k + 1 + i) (k + 1 + j)) v (fun j => f k (k + 1 + j)) l)) * w l =
              bdZ p q (fun i j => f (k + 1 + i) (k + 1 + j)) v (fun j => f k (k + 1 + j)) w s (i - k - 1) := by
            unfold bdZ
            rw [mul_sum, sum_mul, ← sum_sub_distrib]
            refine sum_congr rfl fun l _ => ?_
            beta_reduce
            rw [show k + 1 + (i - k - 1) = i by omega]
            ring
          rw [e2, hf']
          unfold bdNew
          rw [if_neg (by omega), if_neg (by omega), if_neg c3]
          ring

theorem bdStep_spec {safmin : ℝ} (nonneg : Bool) (h0 : 0 < safmin) (h1 : safmin < 1) (ab : ℝ → ℝ) {env : Env}
    (hmin : 2 ≤ env.blas2min ∨ (env.naive = true ∧ env.recursive = false)) {fuel : Nat} {tr : Bool} {m : Mem ℝ} {A t1 t2 : View} {W k M N : Nat}
    {f : Nat → Nat → ℝ} {x1 x2 : ℝ} (d : TDim tr A M N) (hNM : N ≤ M) (hf : M < fuel) (wA : A.WF) (hk : k < N)
    (hA : HoldsR tr m A f) (ht1 : m (t1.at' k 0) = some x1) (ht2 : m (t2.at' k 0) = some x2) (hW : WAlloc m W (M + N))
    (d1 : t1.at' k 0 ∉ A.foot) (d2 : t2.at' k 0 ∉ A.foot) (d12 : t1.at' k 0 ≠ t2.at' k 0)
    (dW : Disjoint A.foot (wcells W (M + N))) (d1W : t1.at' k 0 ∉ wcells W (M + N)) (d2W : t2.at' k 0 ∉ wcells W (M + N)) :
    Runs (bdStep safmin nonneg ab env fuel tr M N A t1 t2 W k m) (fun m' => ∃ f' s t, HoldsR tr m' A f' ∧ m' (t1.at' k 0) = some s ∧
      m' (t2.at' k 0) = some t ∧ WAlloc m' W (M + N) ∧ Frame (A.foot ∪ {t1.at' k 0} ∪ {t2.at' k 0} ∪ wcells W (M + N)) m m' ∧
      BdStep M N k f f' s t) := by
  have hA' := (holdsR_tat d).mp hA
  have ekk : A.at' k k = tat tr A k k := by cases tr <;> rfl
  unfold bdStep
  dsimp only
  set p := M - k - 1 with hp
  set q := N - k - 1 with hq
  have a11 : tat tr A k k ∈ A.foot := tat_foot d (by omega) hk
  have s21 : (tsub tr A (k + 1) k p 1).foot ⊆ A.foot := tsub_foot d (by omega) (by omega)
  have s12 : (tsub tr A k (k + 1) 1 q).foot ⊆ A.foot := tsub_foot d (by omega) (by omega)
  have s22 : (tsub tr A (k + 1) (k + 1) p q).foot ⊆ A.foot := tsub_foot d (by omega) (by omega)
  have hx : HoldsV m (tsub tr A (k + 1) k p 1) (fun l => f (k + 1 + l) k) := tcol_holds.mpr fun l hl => hA' _ _ (by omega) (by omega)
  have z21 := (tcol_vec tr A (k + 1) k p).2
  unfold house
  rw [if_pos rfl, ekk]
  refine Runs.bind (householder_spec false nonneg h0 h1 (tcol_vec tr A (k + 1) k p).1 (tsub_wf d wA (by omega) (by omega)) hx (hA' k k (by omega) hk) ht1
    (by rw [mem_tsub d wA (by omega) (by omega) (by omega) hk]; omega) (fun h => d1 (s21 h)) (fun e => d1 (e ▸ a11))) ?_
  rintro m1 ⟨v, s, b, hv, hb, htt, F1, hcase⟩
  rw [z21] at hcase
  have H1 := isHouseVec_of hcase
  have F1' : Frame (A.foot ∪ {t1.at' k 0}) m m1 := F1.mono (by
    rintro p (h | h | h)
    · exact Or.inl (s21 h)
    · rw [h]; exact Or.inl a11
    · exact Or.inr h)
  have keep1 : ∀ i j, i < M → j < N → ¬ (j = k ∧ k ≤ i) → m1 (tat tr A i j) = some (f i j) := by
    intro i j hi hj hne
    rw [F1, hA' i j hi hj]
    rintro (h | h | h)
    · rw [mem_tsub d wA (by omega) (by omega) hi hj] at h; omega
    · have := tat_inj d wA hi hj (by omega) hk h; omega
    · exact d1 (Set.mem_singleton_iff.mp h ▸ tat_foot d hi hj)
  have hv' := tcol_holds.mp hv
  have ht21 : m1 (t2.at' k 0) = some x2 := by
    rw [F1', ht2]
    rintro (h | h)
    · exact d2 h
    · exact d12 (Set.mem_singleton_iff.mp h).symm
  have hW1 : WAlloc m1 W (M + N) := hW.frame F1' (by
    rw [Set.disjoint_union_right]
    exact ⟨dW.symm, Set.disjoint_singleton_right.mpr d1W⟩)
  by_cases hq0 : q = 0
  · rw [if_pos hq0]
    refine Runs.pure ⟨bdNew M N k f v s b (fun _ => 0) x2 0, s, x2, ?_, htt, ht21, hW1, F1'.mono fun x h => ?_,
      bdNew_step (by omega) hk H1 fun h => by omega⟩
    · refine (holdsR_tat d).mpr fun i j hi hj => ?_
      unfold bdNew
      by_cases c1 : i < k ∨ j < k
      · rw [if_pos c1, keep1 i j hi hj (by omega)]
      · obtain rfl : j = k := by omega
        rw [if_neg c1, if_pos rfl]
        by_cases c2 : i = j
        · rw [if_pos c2, c2, hb]
        · rw [if_neg c2]
          have := hv' (i - j - 1) (by omega)
          rwa [show j + 1 + (i - j - 1) = i by omega] at this
    · rcases h with h | h
      · exact Or.inl (Or.inl (Or.inl h))
      · exact Or.inl (Or.inl (Or.inr h))
  rw [if_neg hq0]
  have h12 : HoldsV m1 (tsub tr A k (k + 1) 1 q) (fun j => f k (k + 1 + j)) := trow_holds.mpr fun l hl => keep1 _ _ (by omega) (by omega) (by omega)
  have h22 : HoldsR tr m1 (tsub tr A (k + 1) (k + 1) p q) (fun i j => f (k + 1 + i) (k + 1 + j)) :=
    (holdsR_tat (tsub_dim tr A _ _ _ _)).mpr fun i j hi hj => by
      rw [tat_tsub]
      exact keep1 _ _ (by omega) (by omega) (by omega)
  have ey : (⟨W, q, q, 1⟩ : View).foot = wcells W q := wview_foot _ _ _
  have ez : (⟨W + q, p, p, 1⟩ : View).foot = wcells (W + q) p := wview_foot _ _ _
  have cy : wcells W q ⊆ wcells W (M + N) := fun x h => ⟨h.1, by have := h.2; omega⟩
  have cz : wcells (W + q) p ⊆ wcells W (M + N) := fun x h => ⟨by have := h.1; omega, by have := h.2; omega⟩
  obtain ⟨y0, hy0⟩ := (hW1.le (n' := q) (by omega)).wholds q
  have hWz : WAlloc m1 (W + q) p := fun x hx => by
    rw [Nat.add_assoc]
    exact hW1 (q + x) (by omega)
  obtain ⟨z0, hz0⟩ := hWz.wholds p
  have zy : (⟨W, q, q, 1⟩ : View).size = q := by simp [View.size]
  have zz : (⟨W + q, p, p, 1⟩ : View).size = p := by simp [View.size]
  refine (bdCore_spec nonneg h0 h1 ab hmin (p := p) (q := q) (by omega) (by omega) (by omega) (by omega) (tsub_wf d wA (by omega) (by omega))
    (tsub_dim tr A (k + 1) (k + 1) p q).1 (tsub_dim tr A (k + 1) (k + 1) p q).2 (tcol_vec tr A (k + 1) k p).1 (trow_vec tr A k (k + 1) q).1 (Or.inr rfl)
    (Or.inr rfl) (tsub_wf d wA (by omega) (by omega)) (Or.inr (le_refl 1)) (Or.inr (le_refl 1)) z21 (trow_vec tr A k (k + 1) q).2 zy zz hv h12 hy0 hz0 h22
    htt ht21 (tsub_disj d wA (by omega) (by omega) (by omega) (by omega) (by omega)) (tsub_disj d wA (by omega) (by omega) (by omega) (by omega) (by omega))
    (by rw [ey]; exact (dW.mono_left s21).mono_right cy) (by rw [ez]; exact (dW.mono_left s21).mono_right cz)
    (tsub_disj d wA (by omega) (by omega) (by omega) (by omega) (by omega)) (by rw [ey]; exact (dW.mono_left s12).mono_right cy)
    (by rw [ez]; exact (dW.mono_left s12).mono_right cz) (by rw [ey]; exact (dW.mono_left s22).mono_right cy)
    (by rw [ez]; exact (dW.mono_left s22).mono_right cz)
    (by rw [ey, ez]; exact Set.disjoint_left.mpr fun x h h' => by have := h.2; have := h'.1; omega)
    (by rw [ey]; exact fun h => d1W (cy h)) (fun h => d2 (s21 h)) (fun h => d2 (s12 h)) (fun h => d2 (s22 h))
    (by rw [ey]; exact fun h => d2W (cy h)) (by rw [ez]; exact fun h => d2W (cz h))).mono ?_
  rintro m2 ⟨w, t, c, htt2, g2, A2, ⟨y', hy'⟩, ⟨z', hz'⟩, F2, H2⟩
  rw [ey, ez] at F2
  have g2' := trow_holds.mp g2
  have A2' := (holdsR_tat (tsub_dim tr A (k + 1) (k + 1) p q)).mp A2
  refine ⟨bdNew M N k f v s b w t c, s, t, ?_, ?_, htt2, ?_, ?_, bdNew_step (by omega) hk H1 fun _ => H2⟩
  · refine (holdsR_tat d).mpr fun i j hi hj => ?_
    unfold bdNew
    have out : ¬ (k ≤ i ∧ k < j) → m2 (tat tr A i j) = m1 (tat tr A i j) := by
      intro hne
      have ha := tat_foot d hi hj
      refine F2 _ ?_
      rintro ((((h | h) | h) | h) | h)
      · rw [mem_tsub d wA (by omega) (by omega) hi hj] at h; omega
      · rw [mem_tsub d wA (by omega) (by omega) hi hj] at h; omega
      · exact Set.disjoint_left.mp dW ha (cy h)
      · exact Set.disjoint_left.mp dW ha (cz h)
      · exact d2 (Set.mem_singleton_iff.mp h ▸ ha)
    by_cases c1 : i < k ∨ j < k
    · rw [if_pos c1, out (by omega), keep1 i j hi hj (by omega)]
    · rw [if_neg c1]
      by_cases c2 : j = k
      · rw [if_pos c2, out (by omega)]
        subst c2
        by_cases c3 : i = j
        · rw [if_pos c3, c3]; exact hb
        · rw [if_neg c3]
          have := hv' (i - j - 1) (by omega)
          rwa [show j + 1 + (i - j - 1) = i by omega] at this
      · rw [if_neg c2]
        by_cases c3 : i = k
        · subst c3
          rw [if_pos rfl]
          have := g2' (j - i - 1) (by omega)
          rw [show i + 1 + (j - i - 1) = j by omega] at this
          rw [this]
          by_cases c4 : j = i + 1
          · rw [if_pos c4, if_pos (by omega)]
          · rw [if_neg c4, if_neg (by omega)]
        · rw [if_neg c3]
          have := A2' (i - k - 1) (j - k - 1) (by omega) (by omega)
          rw [tat_tsub] at this
          beta_reduce at this
          rw [show k + 1 + (j - k - 1) = j by omega, show k + 1 + (i - k - 1) = i by omega] at this
          exact this
  · rw [F2, htt]
    rintro ((((h | h) | h) | h) | h)
    · exact d1 (s12 h)
    · exact d1 (s22 h)
    · exact d1W (cy h)
    · exact d1W (cz h)
    · exact d12 h
  · intro x hx
    by_cases c1 : x < q
    · have := (holdsV_iff (Or.inr rfl)).mp hy' x 0 c1 Nat.one_pos
      exact ⟨_, by simpa [View.at'] using this⟩
    · by_cases c2 : x < q + p
      · have := (holdsV_iff (Or.inr rfl)).mp hz' (x - q) 0 (show x - q < p by omega) Nat.one_pos
        simp only [View.at', Nat.zero_mul, Nat.add_zero] at this
        rw [show W + q + (x - q) = W + x by omega] at this
        exact ⟨_, this⟩
      · rw [F2]
        · exact hW1 x hx
        · have hin : W + x ∈ wcells W (M + N) := ⟨by omega, by omega⟩
          have nA : W + x ∉ A.foot := fun h => Set.disjoint_left.mp dW h hin
          rintro ((((h | h) | h) | h) | h)
          · exact nA (s12 h)
          · exact nA (s22 h)
          · have := h.2; omega
          · have := h.2; omega
          · exact d2W (Set.mem_singleton_iff.mp h ▸ hin)
  · refine (F1'.mono ?_).trans (F2.mono ?_)
    · rintro x (h | h)
      · exact Or.inl (Or.inl (Or.inl h))
      · exact Or.inl (Or.inl (Or.inr h))
    · rintro x ((((h | h) | h) | h) | h)
      · exact Or.inl (Or.inl (Or.inl (s12 h)))
      · exact Or.inl (Or.inl (Or.inl (s22 h)))
      · exact Or.inr (cy h)
      · exact Or.inr (cz h)
      · exact Or.inl (Or.inr h)

/-! ### All steps -/

theorem bdTo_congr {α : Type} [CommRing α] {M N : Nat} {f f' b b' : Nat → Nat → α} {s s' t t' : Nat → α} : ∀ (k : Nat), (∀ c, c < k → s c = s' c) →
    (∀ c, c < k → t c = t' c) → (∀ i c, i < M → c < k → f i c = f' i c) → (∀ c j, c < k → j < N → f c j = f' c j) →
    (∀ i j, i < M → j < N → b i j = b' i j) → ∀ i j, i < M → j < N → bdTo M N k s t f b i j = bdTo M N k s' t' f' b' i j
  | 0, _, _, _, _, hb => hb
  | k + 1, hs, ht, hc, hr, hb => fun i j hi hj => by
    unfold bdTo
    rw [hs k (by omega), ht k (by omega), reflRt_eq, reflRt_eq]
    refine refl_congr hj (fun l hl => ?_) fun l hl => refl_congr hi (fun l' hl' => ?_) fun l' hl' =>
      bdTo_congr k (fun c h => hs c (by omega)) (fun c h => ht c (by omega)) (fun i c h h' => hc i c h (by omega)) (fun c j h h' => hr c j (by omega) h') hb _ _ hl' hl
    · unfold hessw
      beta_reduce
      rw [hr k l (by omega) hl]
    · unfold qrw
      rw [hc l' k hl' (by omega)]

theorem bdFrom_congr {α : Type} [CommRing α] {M N : Nat} {f : Nat → Nat → α} {s t : Nat → α} : ∀ (k : Nat) (b b' : Nat → Nat → α),
    (∀ i j, i < M → j < N → b i j = b' i j) → ∀ i j, i < M → j < N → bdFrom M N k s t f b i j = bdFrom M N k s t f b' i j
  | 0, _, _, hb => hb
  | k + 1, b, b', hb => fun i j hi hj => by
    unfold bdFrom
    refine bdFrom_congr k _ _ (fun i j hi hj => refl_congr hi (fun _ _ => rfl) fun l hl => ?_) i j hi hj
    rw [reflRt_eq, reflRt_eq]
    exact refl_congr hj (fun _ _ => rfl) fun q hq => hb l q hl hq

theorem reflRt_reflRt {n : Nat} {t : ℝ} {w : Nat → ℝ} (h : t = 0 ∨ t * ∑ l ∈ range n, w l ^ 2 = 2 ∨ ∀ l, l < n → w l = 0) (b : Nat → Nat → ℝ)
    (i j : Nat) (hj : j < n) : reflRt n t w (reflRt n t w b) i j = b i j := by
  rcases h with h | h | h
  · rw [reflRt_eq, show (fun a c => reflRt n t w b c a) = refl n t w fun a c => b c a from funext fun a => funext fun c => reflRt_eq ..,
      refl_refl (Or.inl h)]
  · rw [reflRt_eq, show (fun a c => reflRt n t w b c a) = refl n t w fun a c => b c a from funext fun a => funext fun c => reflRt_eq ..,
      refl_refl (Or.inr h)]
  · have : ∀ b : Nat → Nat → ℝ, reflRt n t w b i j = b i j := fun b => by
      unfold reflRt; rw [h j hj]; ring
    rw [this, this]

theorem bdFrom_bdTo {M N : Nat} {f : Nat → Nat → ℝ} {s t : Nat → ℝ} : ∀ (k : Nat) (b : Nat → Nat → ℝ),
    (∀ c, c < k → s c = 0 ∨ s c * ∑ l ∈ range M, qrw f c l ^ 2 = 2) →
    (∀ c, c < k → c + 1 < N → t c = 0 ∨ t c * ∑ l ∈ range N, hessw (fun i j => f j i) c l ^ 2 = 2) →
    ∀ i j, i < M → j < N → bdFrom M N k s t f (bdTo M N k s t f b) i j = b i j
  | 0, _, _, _ => fun _ _ _ _ => rfl
  | k + 1, b, hs, ht => fun i j hi hj => by
    unfold bdFrom bdTo
    rw [bdFrom_congr k _ (bdTo M N k s t f b) (fun i j hi hj => ?_) i j hi hj]
    · exact bdFrom_bdTo k b (fun c h => hs c (by omega)) (fun c h => ht c (by omega)) i j hi hj
    · rw [refl_congr hi (fun _ _ => rfl) fun l hl => reflRt_reflRt (b := refl M (s k) (qrw f k) (bdTo M N k s t f b)) ?_ l j hj, refl_refl (hs k (by omega))]
      by_cases c : k + 1 < N
      · rcases ht k (by omega) c with h | h
        · exact Or.inl h
        · exact Or.inr (Or.inl h)
      · exact Or.inr (Or.inr fun l hl => if_pos (by omega))

/-- State after `k` steps. -/
structure BdInv (M N k : Nat) (f0 f : Nat → Nat → ℝ) (s t : Nat → ℝ) : Prop where
  prod : ∀ i j, i < M → j < N → bdTo M N k s t f f0 i j = bdMid k f i j
  norms : ∀ c, c < k → s c = 0 ∨ s c * ∑ l ∈ range M, qrw f c l ^ 2 = 2
  normt : ∀ c, c < k → c + 1 < N → t c = 0 ∨ t c * ∑ l ∈ range N, hessw (fun i j => f j i) c l ^ 2 = 2
  lasts : ∀ c, c < k → M = c + 1 → s c = 0
  lastt : ∀ c, c < k → N = c + 2 → t c = 0

theorem BdInv.step {M N k : Nat} {f0 f f' : Nat → Nat → ℝ} {s t : Nat → ℝ} {sk tk : ℝ} (h : BdInv M N k f0 f s t) (hs : BdStep M N k f f' sk tk) :
    BdInv M N (k + 1) f0 f' (Function.update s k sk) (Function.update t k tk) := by
  refine ⟨?_, ?_, ?_, ?_, ?_⟩
  · intro i j hi hj
    rw [← hs.app i j hi hj]
    unfold bdTo
    rw [Function.update_self, Function.update_self, reflRt_eq, reflRt_eq]
    refine refl_congr hj (fun _ _ => rfl) fun l hl => refl_congr hi (fun _ _ => rfl) fun l' hl' => ?_
    rw [← h.prod l' l hl' hl]
    exact bdTo_congr k (fun c hc => Function.update_of_ne (Nat.ne_of_lt hc) _ _) (fun c hc => Function.update_of_ne (Nat.ne_of_lt hc) _ _)
      (fun i c hi hc => hs.keepc i c hi hc) (fun c j hc hj => hs.keepr c j hc hj) (fun _ _ _ _ => rfl) _ _ hl' hl
  · intro c hc
    by_cases e : c = k
    · subst e
      rw [Function.update_self]
      exact hs.norms
    · rw [Function.update_of_ne e]
      rcases h.norms c (by omega) with h | h
      · exact Or.inl h
      · right
        rw [← h]
        congr 1
        refine sum_congr rfl fun l hl => ?_
        unfold qrw
        rw [hs.keepc l c (mem_range.mp hl) (by omega)]
  · intro c hc hN
    by_cases e : c = k
    · subst e
      rw [Function.update_self]
      exact hs.normt hN
    · rw [Function.update_of_ne e]
      rcases h.normt c (by omega) hN with h | h
      · exact Or.inl h
      · right
        rw [← h]
        congr 1
        refine sum_congr rfl fun l hl => ?_
        unfold hessw
        beta_reduce
        rw [hs.keepr c l (by omega) (mem_range.mp hl)]
  · intro c hc hM
    by_cases e : c = k
    · subst e; rw [Function.update_self]; exact hs.lasts hM
    · rw [Function.update_of_ne e]; exact h.lasts c (by omega) hM
  · intro c hc hN
    by_cases e : c = k
    · subst e; rw [Function.update_self]; exact hs.lastt hN
    · rw [Function.update_of_ne e]; exact h.lastt c (by omega) hN

theorem unblkBd_spec {safmin : ℝ} (nonneg : Bool) (h0 : 0 < safmin) (h1 : safmin < 1) (ab : ℝ → ℝ) {env : Env}
    (hmin : 2 ≤ env.blas2min ∨ (env.naive = true ∧ env.recursive = false)) {fuel : Nat} {tr : Bool} {m : Mem ℝ} {A t1 t2 : View} {W M N : Nat}
    {f0 : Nat → Nat → ℝ} {x1 x2 : Nat → ℝ} (d : TDim tr A M N) (hNM : N ≤ M) (hf : M < fuel) (wA : A.WF) (hA : HoldsR tr m A f0)
    (ht1 : ∀ k, k < N → m (t1.at' k 0) = some (x1 k)) (ht2 : ∀ k, k < N → m (t2.at' k 0) = some (x2 k)) (hW : WAlloc m W (M + N))
    (d1 : Disjoint A.foot (tcells t1 N)) (d2 : Disjoint A.foot (tcells t2 N)) (d12 : Disjoint (tcells t1 N) (tcells t2 N))
    (dW : Disjoint A.foot (wcells W (M + N))) (d1W : Disjoint (tcells t1 N) (wcells W (M + N))) (d2W : Disjoint (tcells t2 N) (wcells W (M + N))) :
    Runs (unblkBd safmin nonneg ab env fuel tr M N m A t1 t2 W) (fun m' => ∃ f s t, HoldsR tr m' A f ∧
      (∀ k, k < N → m' (t1.at' k 0) = some (s k)) ∧ (∀ k, k < N → m' (t2.at' k 0) = some (t k)) ∧ WAlloc m' W (M + N) ∧
      Frame (A.foot ∪ tcells t1 N ∪ tcells t2 N ∪ wcells W (M + N)) m m' ∧ BdInv M N N f0 f s t) := by
  have eN : min A.rows A.cols = N := by
    obtain ⟨hr, hc⟩ := d
    cases tr <;> simp only [Bool.false_eq_true, if_false, if_true] at hr hc <;> omega
  unfold unblkBd
  rw [eN]
  refine Runs.bind (P := fun r => ∃ f s t, HoldsR tr r.2 A f ∧
      (∀ k, k < N → r.2 (t1.at' k 0) = some (s k)) ∧ (∀ k, k < N → r.2 (t2.at' k 0) = some (t k)) ∧ WAlloc r.2 W (M + N) ∧
      Frame (A.foot ∪ tcells t1 N ∪ tcells t2 N ∪ wcells W (M + N)) m r.2 ∧ BdInv M N N f0 f s t) ?_ ?_
  · refine Runs.forUp1 (i := 0) (n := N) (I := fun k m' => ∃ f s t, HoldsR tr m' A f ∧
      (∀ k, k < N → m' (t1.at' k 0) = some (s k)) ∧ (∀ k, k < N → m' (t2.at' k 0) = some (t k)) ∧ WAlloc m' W (M + N) ∧
      Frame (A.foot ∪ tcells t1 N ∪ tcells t2 N ∪ wcells W (M + N)) m m' ∧ BdInv M N k f0 f s t) (Nat.zero_le _) ?_ ?_ (fun st h => h)
    · exact ⟨f0, x1, x2, hA, ht1, ht2, hW, Frame.refl _ _, fun i j _ _ => by
        unfold bdTo bdMid
        rw [if_neg (by omega)], fun l hl => by omega, fun l hl => by omega, fun l hl => by omega, fun l hl => by omega⟩
    · rintro k m1 - hk ⟨f, s, t, hA1, hs1, ht1, hW1, F1, hI⟩
      have m1k : t1.at' k 0 ∈ tcells t1 N := ⟨k, hk, rfl⟩
      have m2k : t2.at' k 0 ∈ tcells t2 N := ⟨k, hk, rfl⟩
      refine (bdStep_spec nonneg h0 h1 ab hmin d hNM hf wA hk hA1 (hs1 k hk) (ht1 k hk) hW1 (fun h => Set.disjoint_left.mp d1 h m1k)
        (fun h => Set.disjoint_left.mp d2 h m2k) (fun e => Set.disjoint_left.mp d12 m1k (e ▸ m2k)) dW (Set.disjoint_left.mp d1W m1k)
        (Set.disjoint_left.mp d2W m2k)).mono ?_
      rintro m2 ⟨f', sk, tk, hA2, hs2, ht2, hW2, F2, hs⟩
      refine ⟨f', Function.update s k sk, Function.update t k tk, hA2, ?_, ?_, hW2, F1.trans (F2.mono ?_), hI.step hs⟩
      · intro l hl
        have ml : t1.at' l 0 ∈ tcells t1 N := ⟨l, hl, rfl⟩
        by_cases c : l = k
        · subst c; rw [Function.update_self]; exact hs2
        · rw [Function.update_of_ne c, F2]
          · exact hs1 l hl
          · rintro (((h | h) | h) | h)
            · exact Set.disjoint_left.mp d1 h ml
            · have h := Set.mem_singleton_iff.mp h
              simp only [View.at', zero_mul, add_zero] at h
              omega
            · exact Set.disjoint_left.mp d12 ml (Set.mem_singleton_iff.mp h ▸ m2k)
            · exact Set.disjoint_left.mp d1W ml h
      · intro l hl
        have ml : t2.at' l 0 ∈ tcells t2 N := ⟨l, hl, rfl⟩
        by_cases c : l = k
        · subst c; rw [Function.update_self]; exact ht2
        · rw [Function.update_of_ne c, F2]
          · exact ht1 l hl
          · rintro (((h | h) | h) | h)
            · exact Set.disjoint_left.mp d2 h ml
            · exact Set.disjoint_left.mp d12 (Set.mem_singleton_iff.mp h ▸ m1k) ml
            · have h := Set.mem_singleton_iff.mp h
              simp only [View.at', zero_mul, add_zero] at h
              omega
            · exact Set.disjoint_left.mp d2W ml h
      · rintro p (((h | h) | h) | h)
        · exact Or.inl (Or.inl (Or.inl h))
        · exact Or.inl (Or.inl (Or.inr ⟨k, hk, h⟩))
        · exact Or.inl (Or.inr ⟨k, hk, h⟩)
        · exact Or.inr h
  · rintro ⟨k, m1⟩ h
    exact Runs.pure h

end Armas
