import Verif.Hess
import Verif.HessSpec
import Verif.QrLemmas

/-!
# Lemmas about the Hessenberg reduction
-/

namespace Armas

open Finset

/-- Result of `houseVec` for the vector `g` of length `p`: the vector is replaced by `(b, u 1, u 2, ...)`, `u 0 = 1`. -/
structure IsHouseVec (p : Nat) (g u : Nat → ℝ) (t b : ℝ) : Prop where
  one : u 0 = 1
  norm : t = 0 ∨ t * ∑ l ∈ range p, u l ^ 2 = 2
  app : ∀ i, i < p → g i - t * u i * ∑ l ∈ range p, u l * g l = if i = 0 then b else 0
  last : p = 1 → t = 0

theorem houseVec_spec {safmin : ℝ} (nonneg : Bool) (h0 : 0 < safmin) (h1 : safmin < 1) {m : Mem ℝ} {x : View} {tau p : Nat} {g : Nat → ℝ}
    {t0 : ℝ} (hc : x.cols = 1) (hr : x.rows = p) (hp : 0 < p) (wx : x.WF) (hx : Holds m x (fun i _ => g i)) (ht : m tau = some t0)
    (dt : tau ∉ x.foot) :
    Runs (houseVec safmin m x tau nonneg) (fun m' => ∃ u t b, m' tau = some t ∧ m' (x.at' 0 0) = some b ∧
      (∀ l, 0 < l → l < p → m' (x.at' l 0) = some (u l)) ∧ Frame (x.foot ∪ {tau}) m m' ∧ IsHouseVec p g u t b) := by
  have hs : x.size = p := by rw [View.size, hc, hr, Nat.mul_one]
  have a0 : x.at' 0 0 ∈ x.foot := View.at_mem_foot (by omega) (by omega)
  have ne : x.at' 0 0 ≠ tau := fun e => dt (e ▸ a0)
  unfold houseVec
  rw [if_neg (by omega)]
  by_cases h : x.rows = 1
  · rw [if_pos h]
    have hp1 : p = 1 := by omega
    have ef : (x.sub 0 1 1 (x.size - 1)).foot = ∅ := by
      ext q
      simp only [Set.mem_empty_iff_false, iff_false]
      rintro ⟨i, j, hi, hj, -⟩
      rw [View.sub_cols] at hj
      omega
    have es : (x.sub 0 1 1 (x.size - 1)).size = 0 := by show 1 * (x.size - 1) = 0; omega
    refine (householder_spec (x := fun _ => 0) false nonneg h0 h1 (Or.inl rfl) (by simp [View.WF, hs, hp1]) (fun k hk => by omega)
      (hx 0 0 (by omega) (by omega)) ht (by simp [ef]) (by simp [ef]) ne).mono ?_
    rintro m' ⟨v, t, b, -, hb, htt, F, hcase⟩
    rw [es] at hcase
    rcases hcase with ⟨-, rfl, rfl, -⟩ | ⟨h, -⟩
    · refine ⟨fun l => if l = 0 then 1 else 0, 0, _, htt, hb, fun l _ _ => by omega, F.mono ?_, rfl, Or.inl rfl, fun i hi => ?_, fun _ => rfl⟩
      · rw [ef]
        rintro q (h | h | h)
        · exact absurd h (Set.notMem_empty _)
        · rw [h]; exact Or.inl a0
        · exact Or.inr h
      · obtain rfl : i = 0 := by omega
        simp
    · simp at h
  · rw [if_neg h]
    have es : (x.sub 1 0 (x.size - 1) 1).size = p - 1 := by simp [View.size, hs] <;> rw [← hs, View.size]
    have ss : (x.sub 1 0 (x.size - 1) 1).foot ⊆ x.foot := View.sub_foot (by omega) (by omega)
    have hX : HoldsV m (x.sub 1 0 (x.size - 1) 1) (fun l => g (1 + l)) := ((hx.part (by omega) (by omega)).toV_col).congr fun l _ => rfl
    refine (householder_spec false nonneg h0 h1 (Or.inr rfl) (wx.sub (by omega) (by omega)) hX (hx 0 0 (by omega) (by omega)) ht
      (by rw [View.mem_sub_foot wx (by omega) (by omega) (by omega) (by omega)]; omega) (fun h => dt (ss h)) ne).mono ?_
    rintro m' ⟨v, t, b, hv, hb, htt, F, hcase⟩
    rw [es] at hcase
    have hsum : ∀ c : Nat → ℝ, ∑ l ∈ range p, (if l = 0 then 1 else v (l - 1)) * c l = c 0 + ∑ l ∈ range (p - 1), v l * c (1 + l) := by
      intro c
      obtain ⟨q, rfl⟩ : ∃ q, p = q + 1 := ⟨p - 1, by omega⟩
      rw [sum_range_succ', add_comm]
      simp [add_comm]
    refine ⟨fun l => if l = 0 then 1 else v (l - 1), t, b, htt, hb, ?_, F.mono ?_, rfl, ?_, ?_, fun h => by omega⟩
    · intro l hl hlp
      have := (holdsV_iff (Or.inr rfl)).mp hv (l - 1) 0 (by rw [View.sub_rows]; omega) Nat.one_pos
      rw [View.at_sub, show 1 + (l - 1) = l by omega] at this
      beta_reduce
      rw [if_neg (by omega)]
      exact this
    · rintro q (h | h | h)
      · exact Or.inl (ss h)
      · rw [h]; exact Or.inl a0
      · exact Or.inr h
    · rcases hcase with ⟨-, h, -⟩ | ⟨-, hI⟩
      · exact Or.inl h
      · right
        rw [← hI.norm]
        congr 1
        have := hsum fun l => if l = 0 then 1 else v (l - 1)
        simp only [pow_two]
        rw [this, if_pos rfl]
        congr 1
        refine sum_congr rfl fun l _ => ?_
        rw [if_neg (by omega), Nat.add_sub_cancel_left]
    · intro i hi
      beta_reduce
      rw [hsum g]
      rcases hcase with ⟨hS, rfl, rfl, -⟩ | ⟨-, hI⟩
      · by_cases c : i = 0
        · subst c; simp
        · rw [if_neg c, if_neg c]
          have := (sum_eq_zero_iff_of_nonneg (fun l _ => sq_nonneg (g (1 + l)))).mp hS (i - 1) (mem_range.mpr (by omega))
          rw [show 1 + (i - 1) = i by omega, pow_eq_zero_iff two_ne_zero] at this
          rw [this]; ring
      · have hf := hI.first
        simp only [hhSigma] at hf
        by_cases c : i = 0
        · rw [if_pos c, if_pos c, c]
          simp at hf
          linear_combination -hf
        · rw [if_neg c, if_neg c]
          have := hI.rest (i - 1) (by omega)
          rw [show 1 + (i - 1) = i by omega] at this
          simp only [hhSigma] at this
          linear_combination -v (i - 1) * hf - this

/-- Matrix after `k` steps: zeros in the place of the vectors. -/
def hessMid {α : Type} [CommRing α] (k : Nat) (f : Nat → Nat → α) (i j : Nat) : α := if j < k ∧ j + 1 < i then 0 else f i j

/-- Result of step `k`. -/
structure HessStep (n k : Nat) (f f' : Nat → Nat → ℝ) (t : ℝ) : Prop where
  keep : ∀ i j, i < n → j < k → f' i j = f i j
  norm : t = 0 ∨ t * ∑ l ∈ range n, hessw f' k l ^ 2 = 2
  app : ∀ i j, i < n → j < n → reflConj n t (hessw f' k) (hessMid k f) i j = hessMid (k + 1) f' i j
  last : k + 2 = n → t = 0

/-- The matrix after step `k`. -/
def hessNew (n k : Nat) (f : Nat → Nat → ℝ) (u : Nat → ℝ) (t b : ℝ) (i j : Nat) : ℝ :=
  let G := fun i j => f i (k + 1 + j) - t * ((∑ l ∈ range (n - k - 1), f i (k + 1 + l) * u l) * u j)
  if j < k then f i j else if j = k then (if i ≤ k then f i k else if i = k + 1 then b else u (i - k - 1))
  else if i ≤ k then G i (j - k - 1)
  else G i (j - k - 1) - t * (u (i - k - 1) * ∑ l ∈ range (n - k - 1), G (k + 1 + l) (j - k - 1) * u l)

theorem hessNew_step {n k : Nat} {f : Nat → Nat → ℝ} {u : Nat → ℝ} {t b : ℝ} (hk : k + 1 < n)
    (H : IsHouseVec (n - k - 1) (fun i => f (k + 1 + i) k) u t b) : HessStep n k f (hessNew n k f u t b) t := by
  have hw : ∀ i, hessw (hessNew n k f u t b) k i = if i ≤ k then 0 else u (i - k - 1) := by
    intro i
    unfold hessw
    by_cases c1 : i ≤ k
    · rw [if_pos c1, if_pos c1]
    · rw [if_neg c1, if_neg c1]
      by_cases c2 : i = k + 1
      · rw [if_pos c2, c2, show k + 1 - k - 1 = 0 by omega, H.one]
      · rw [if_neg c2]
        unfold hessNew
        simp only
        rw [if_neg (by omega), if_pos trivial, if_neg c1, if_neg c2]
  have hsum : ∀ c : Nat → ℝ, ∑ l ∈ range n, c l * hessw (hessNew n k f u t b) k l = ∑ l ∈ range (n - k - 1), c (k + 1 + l) * u l := by
    intro c
    obtain ⟨p, rfl⟩ : ∃ p, n = k + 1 + p := ⟨n - k - 1, by omega⟩
    rw [sum_range_add, sum_eq_zero (s := range (k + 1)) fun l hl => by
      have := mem_range.mp hl
      rw [hw, if_pos (by omega), mul_zero], zero_add, show k + 1 + p - k - 1 = p by omega]
    refine sum_congr rfl fun l _ => ?_
    rw [hw, if_neg (by omega), show k + 1 + l - k - 1 = l by omega]
  refine ⟨?_, ?_, ?_, fun h => H.last (by omega)⟩
  · intro i j _ hj
    unfold hessNew
    simp only
    rw [if_pos hj]
  · rcases H.norm with h | h
    · exact Or.inl h
    · right
      rw [← h]
      congr 1
      simp only [pow_two]
      rw [hsum]
      refine sum_congr rfl fun l _ => ?_
      rw [hw, if_neg (by omega), show k + 1 + l - k - 1 = l by omega]
  · intro i j hi hj
    have hR : ∀ i j, reflRt n t (hessw (hessNew n k f u t b) k) (hessMid k f) i j = if j ≤ k then hessMid k f i j else
        f i j - t * ((∑ l ∈ range (n - k - 1), f i (k + 1 + l) * u l) * u (j - k - 1)) := by
      intro i j
      unfold reflRt
      rw [hsum, hw]
      by_cases c : j ≤ k
      · rw [if_pos c, if_pos c]; ring
      · rw [if_neg c, if_neg c, sum_congr rfl fun l _ => by rw [show hessMid k f i (k + 1 + l) = f i (k + 1 + l) from if_neg (by omega)],
          show hessMid k f i j = f i j from if_neg (by omega)]
        ring
    unfold reflConj refl
    have e2 : ∑ l ∈ range n, hessw (hessNew n k f u t b) k l * reflRt n t (hessw (hessNew n k f u t b) k) (hessMid k f) l j =
        ∑ l ∈ range (n - k - 1), reflRt n t (hessw (hessNew n k f u t b) k) (hessMid k f) (k + 1 + l) j * u l := by
      rw [← hsum fun l => reflRt n t (hessw (hessNew n k f u t b) k) (hessMid k f) l j]
      exact sum_congr rfl fun l _ => mul_comm _ _
    rw [e2, hw i, hR i j]
    rcases lt_trichotomy j k with c | c | c
    · have e3 : ∑ l ∈ range (n - k - 1), reflRt n t (hessw (hessNew n k f u t b) k) (hessMid k f) (k + 1 + l) j * u l = 0 :=
        sum_eq_zero fun l _ => by rw [hR, if_pos c.le, hessMid, if_pos (by omega), zero_mul]
      have e4 : hessNew n k f u t b i j = f i j := by unfold hessNew; simp only; rw [if_pos c]
      rw [e3, if_pos c.le, mul_zero, sub_zero, hessMid, hessMid, e4]
      by_cases c2 : j + 1 < i
      · rw [if_pos ⟨c, c2⟩, if_pos ⟨by omega, c2⟩]
      · rw [if_neg (by omega), if_neg (by omega)]
    · subst c
      have e3 : ∑ l ∈ range (n - j - 1), reflRt n t (hessw (hessNew n j f u t b) j) (hessMid j f) (j + 1 + l) j * u l =
          ∑ l ∈ range (n - j - 1), u l * f (j + 1 + l) j :=
        sum_congr rfl fun l _ => by rw [hR, if_pos le_rfl, hessMid, if_neg (by omega), mul_comm]
      have e4 : hessNew n j f u t b i j = if i ≤ j then f i j else if i = j + 1 then b else u (i - j - 1) := by
        unfold hessNew; simp only; rw [if_neg (lt_irrefl j), if_pos trivial]
      rw [e3, if_pos le_rfl, hessMid, hessMid, e4, if_neg (by omega)]
      by_cases c2 : i ≤ j
      · rw [if_pos c2, if_neg (by omega), if_pos c2]; ring
      · rw [if_neg c2, if_neg c2]
        have := H.app (i - j - 1) (by omega)
        beta_reduce at this
        rw [show j + 1 + (i - j - 1) = i by omega] at this
        rw [this]
        by_cases c3 : i = j + 1
        · rw [if_pos (by omega), if_neg (by omega), if_pos c3]
        · rw [if_neg (by omega), if_pos (by omega)]
    · have ej : k + 1 + (j - k - 1) = j := by omega
      have e3 : ∑ l ∈ range (n - k - 1), reflRt n t (hessw (hessNew n k f u t b) k) (hessMid k f) (k + 1 + l) j * u l =
          ∑ l ∈ range (n - k - 1), (f (k + 1 + l) j - t * ((∑ l' ∈ range (n - k - 1), f (k + 1 + l) (k + 1 + l') * u l') *
            u (j - k - 1))) * u l :=
        sum_congr rfl fun l _ => by rw [hR, if_neg (by omega)]
      rw [e3, if_neg (show ¬ j ≤ k by omega), hessMid, if_neg (show ¬ (j < k + 1 ∧ j + 1 < i) by omega)]
      unfold hessNew
      simp only
      rw [if_neg (show ¬ j < k by omega), if_neg (show ¬ j = k by omega), ej]
      by_cases c2 : i ≤ k
      · rw [if_pos c2, if_pos c2]; ring
      · rw [if_neg c2, if_neg c2]; ring

theorem wview_foot (W s n : Nat) : (⟨W, s, n, 1⟩ : View).foot = wcells W n := by
  ext p
  constructor
  · rintro ⟨i, j, hi, hj, rfl⟩
    have hj' : j < 1 := hj
    obtain rfl : j = 0 := by omega
    simp only [View.at', Nat.zero_mul, Nat.add_zero, wcells, Set.mem_setOf_eq]
    have : i < n := hi
    omega
  · rintro ⟨h1, h2⟩
    exact ⟨p - W, 0, by show p - W < n; omega, Nat.one_pos, by simp only [View.at', Nat.zero_mul, Nat.add_zero]; omega⟩

theorem WAlloc.wholds {m : Mem ℝ} {W n : Nat} (s : Nat) (h : WAlloc m W n) : ∃ w, HoldsV m ⟨W, s, n, 1⟩ w := by
  obtain ⟨w, hw⟩ := h.holds
  refine ⟨w, (holdsV_iff (Or.inr rfl)).mpr fun i j hi hj => ?_⟩
  have hj' : j < 1 := hj
  obtain rfl : j = 0 := by omega
  have := (holdsV_iff (Or.inr rfl)).mp hw i 0 hi Nat.one_pos
  simpa [View.at'] using this

theorem hessStep_spec {safmin : ℝ} (nonneg : Bool) (h0 : 0 < safmin) (h1 : safmin < 1) (ab : ℝ → ℝ) {env : Env}
    (hmin : 2 ≤ env.blas2min ∨ (env.naive = true ∧ env.recursive = false)) {fuel : Nat} {m : Mem ℝ} {A tau : View} {W k n : Nat}
    {f : Nat → Nat → ℝ} {t0 : ℝ} (hr : A.rows = n) (hc : A.cols = n) (hf : n < fuel) (wA : A.WF) (hk : k + 1 < n)
    (hA : Holds m A f) (ht : m (tau.at' k 0) = some t0) (hW : WAlloc m W n) (dt : tau.at' k 0 ∉ A.foot)
    (dW : Disjoint A.foot (wcells W n)) (dtW : tau.at' k 0 ∉ wcells W n) :
    Runs (hessStep safmin nonneg ab env fuel A tau W 0 k m) (fun m' => ∃ f' t, Holds m' A f' ∧ m' (tau.at' k 0) = some t ∧
      WAlloc m' W n ∧ Frame (A.foot ∪ {tau.at' k 0} ∪ wcells W n) m m' ∧ HessStep n k f f' t) := by
  unfold hessStep
  dsimp only
  rw [hr, hc, Nat.zero_add]
  have hmin' : env.blas2min ≠ 1 ∨ env.naive = true := by
    rcases hmin with h | h
    · left; omega
    · exact Or.inr h.1
  have s21 : (A.sub (k + 1) k (n - k - 1) 1).foot ⊆ A.foot := View.sub_foot (by omega) (by omega)
  have s2 : (A.sub 0 (k + 1) n (n - k - 1)).foot ⊆ A.foot := View.sub_foot (by omega) (by omega)
  have s22 : (A.sub (k + 1) (k + 1) (n - k - 1) (n - k - 1)).foot ⊆ A.foot := View.sub_foot (by omega) (by omega)
  have wsub : ∀ r c nr nc, r + nr ≤ n → c + nc ≤ n → (A.sub r c nr nc).WF := fun r c nr nc h h' => wA.sub (by omega) (by omega)
  have e21 : (A.sub (k + 1) k (n - k - 1) 1).at' 0 0 = A.at' (k + 1) k := by rw [View.at_sub]; rfl
  have m21 : A.at' (k + 1) k ∈ (A.sub (k + 1) k (n - k - 1) 1).foot := by
    rw [View.mem_sub_foot wA (by omega) (by omega) (by omega) (by omega)]; omega
  refine Runs.bind (houseVec_spec nonneg h0 h1 (g := fun i => f (k + 1 + i) k) rfl rfl (by rw [View.sub_rows]; omega)
    (wsub _ _ _ _ (by omega) (by omega)) ((hA.part (by omega) (by omega)).congr fun i j _ hj => by
      rw [View.sub_cols] at hj
      obtain rfl : j = 0 := by omega
      rfl) ht (fun h => dt (s21 h))) ?_
  rintro m1 ⟨u, t, b, htt, hb, hu, F1, H⟩
  rw [View.sub_rows] at hu H
  refine Runs.rd_bind htt (Runs.rd_bind hb ?_)
  rw [e21] at hb ⊢
  refine Runs.wr_bind hb ?_
  set p := n - k - 1 with hp
  set m2 := m1.set (A.at' (k + 1) k) 1 with hm2
  have F2 : Frame ((A.sub (k + 1) k p 1).foot ∪ {tau.at' k 0}) m m2 := F1.trans (Frame.set (Or.inl m21) _)
  have u2 : HoldsV m2 (A.sub (k + 1) k p 1) u := (holdsV_iff (Or.inr rfl)).mpr fun i j hi hj => by
    rw [View.sub_rows] at hi
    rw [View.sub_cols] at hj
    obtain rfl : j = 0 := by omega
    by_cases c : i = 0
    · subst c
      rw [e21, hm2, Mem.set_same]
      show some (1 : ℝ) = some (u 0)
      rw [H.one]
    · have ne : (A.sub (k + 1) k p 1).at' i 0 ≠ A.at' (k + 1) k := fun e => by
        rw [View.at_sub] at e
        have := View.at_inj wA (by omega) (by omega) (by omega) (by omega) e
        omega
      rw [hm2, Mem.set_ne _ _ ne, hu i (by omega) hi]
      rfl
  have keep2 : ∀ i j, i < n → j < n → ¬ (j = k ∧ k < i) → m2 (A.at' i j) = some (f i j) := by
    intro i j hi hj hne
    rw [F2, hA i j (by omega) (by omega)]
    rintro (h | h)
    · rw [View.mem_sub_foot wA (by omega) (by omega) (by omega) (by omega)] at h; omega
    · exact dt (Set.mem_singleton_iff.mp h ▸ View.at_mem_foot (by omega) (by omega))
  have tt2 : m2 (tau.at' k 0) = some t := by
    rw [hm2, Mem.set_ne, htt]
    exact fun e => dt (e ▸ s21 m21)
  have hA2 : Holds m2 (A.sub 0 (k + 1) n p) (fun i j => f i (k + 1 + j)) := by
    intro i j hi hj
    rw [View.sub_rows] at hi
    rw [View.sub_cols] at hj
    rw [View.at_sub, Nat.zero_add]
    exact keep2 _ _ hi (by omega) (by omega)
  have hW2 : WAlloc m2 W n := hW.frame F2 (by
    rw [Set.disjoint_union_right]
    exact ⟨(dW.mono_left s21).symm, Set.disjoint_singleton_right.mpr dtW⟩)
  obtain ⟨w, hw⟩ := hW2.wholds n
  have ev1 : (⟨W, n, n, 1⟩ : View).foot = wcells W n := wview_foot _ _ _
  have ev2 : (⟨W, n, p, 1⟩ : View).foot = wcells W p := wview_foot _ _ _
  have csub : wcells W p ⊆ wcells W n := fun p hp => ⟨hp.1, lt_of_lt_of_le hp.2 (by omega)⟩
  have z21 : (A.sub (k + 1) k p 1).size = p := by simp [View.size]
  have d21_2 : Disjoint (A.sub (k + 1) k p 1).foot (A.sub 0 (k + 1) n p).foot :=
    View.sub_disj wA (by omega) (by omega) (by omega) (by omega) (by omega)
  have d21_22 : Disjoint (A.sub (k + 1) k p 1).foot (A.sub (k + 1) (k + 1) p p).foot :=
    View.sub_disj wA (by omega) (by omega) (by omega) (by omega) (by omega)
  -- v1 = A2 a21
  refine Runs.bind (Props.C10_mvmult_partial ab hmin' 0 1 (fl := {}) rfl (A := A.sub 0 (k + 1) n p) (Y := ⟨W, n, n, 1⟩)
    (X := A.sub (k + 1) k p 1) (by simp [View.size]; omega) (by simp [View.size]; omega) (Or.inr rfl) (Or.inr (le_refl 1)) (Or.inr rfl)
    (by simp [View.size]) (by simp [View.size]) hw hA2 u2 (by rw [ev1]; exact dW.mono_left s2) (by rw [ev1]; exact dW.mono_left s21)) ?_
  rintro ⟨e3, m3⟩ ⟨-, hy3, F3⟩
  dsimp only at hy3 F3 ⊢
  rw [ev1] at F3
  rw [z21] at hy3
  have u3 := u2.frame (Or.inr rfl) F3 (dW.mono_left s21)
  have hA3 := hA2.frame F3 (dW.mono_left s2)
  -- A2 := A2 - tau v1 a21ᵀ
  refine Runs.bind (Props.C11_mvupdate_partial hmin 1 (-t) (A := A.sub 0 (k + 1) n p) (X := ⟨W, n, n, 1⟩) (Y := A.sub (k + 1) k p 1)
    (by rw [View.sub_rows]; omega) (wsub _ _ _ _ (by omega) (by omega)) (Or.inr rfl) (Or.inr rfl) (by simp [View.size]) (by simp [View.size])
    hA3 hy3 u3 (by rw [ev1]; exact (dW.mono_left s2).symm) d21_2) ?_
  rintro ⟨e4, m4⟩ ⟨-, hA4, F4⟩
  dsimp only at hA4 F4 ⊢
  have u4 := u3.frame (Or.inr rfl) F4 d21_2
  have hW4 : WAlloc m4 W p := by
    have := (WAlloc.of_holds hy3).frame F4 (dW.mono_left s2).symm
    exact this.le (by omega)
  obtain ⟨w4, hw4⟩ := hW4.wholds n
  have hA4' : Holds m4 (A.sub (k + 1) (k + 1) p p) (fun i j => f (k + 1 + i) (k + 1 + j) - t * ((∑ l ∈ range p, f (k + 1 + i) (k + 1 + l) *
      u l) * u j)) := by
    intro i j hi hj
    rw [View.sub_rows] at hi
    rw [View.sub_cols] at hj
    have := hA4 (k + 1 + i) j (by rw [View.sub_rows]; omega) hj
    rw [View.at_sub, Nat.zero_add] at this
    rw [View.at_sub, this]
    simp only [Bool.false_eq_true, if_false]
    congr 1
    ring
  -- w12 = A22ᵀ a21
  refine Runs.bind (Props.C10_mvmult_partial ab hmin' 0 1 (fl := { transA := true }) rfl (A := A.sub (k + 1) (k + 1) p p) (Y := ⟨W, n, p, 1⟩)
    (X := A.sub (k + 1) k p 1) (by simp [View.size]; omega) (by simp [View.size]; omega) (Or.inr rfl) (Or.inr (le_refl 1)) (Or.inr rfl)
    (by simp [View.size]) (by simp [View.size]) hw4 hA4' u4 (by rw [ev2]; exact (dW.mono_left s22).mono_right csub)
    (by rw [ev2]; exact (dW.mono_left s21).mono_right csub)) ?_
  rintro ⟨e5, m5⟩ ⟨-, hz5, F5⟩
  dsimp only at hz5 F5 ⊢
  rw [ev2] at F5
  rw [z21] at hz5
  have u5 := u4.frame (Or.inr rfl) F5 ((dW.mono_left s21).mono_right csub)
  have hA5 := hA4'.frame F5 ((dW.mono_left s22).mono_right csub)
  -- A22 := A22 - tau a21 w12ᵀ
  refine Runs.bind (Props.C11_mvupdate_partial hmin 1 (-t) (A := A.sub (k + 1) (k + 1) p p) (X := A.sub (k + 1) k p 1) (Y := ⟨W, n, p, 1⟩)
    (by rw [View.sub_rows]; omega) (wsub _ _ _ _ (by omega) (by omega)) (Or.inr rfl) (Or.inr rfl) (by simp [View.size]) (by simp [View.size])
    hA5 u5 hz5 d21_22 (by rw [ev2]; exact ((dW.mono_left s22).mono_right csub).symm)) ?_
  rintro ⟨e6, m6⟩ ⟨-, hA6, F6⟩
  dsimp only at hA6 F6 ⊢
  have u6 := u5.frame (Or.inr rfl) F6 d21_22
  have b6 : m6 (A.at' (k + 1) k) = some (u 0) := by
    have := (holdsV_iff (Or.inr rfl)).mp u6 0 0 (by rw [View.sub_rows]; omega) Nat.one_pos
    rwa [e21] at this
  refine Runs.wr b6 ?_
  have g6 : ∀ q, q ∉ (A.sub (k + 1) (k + 1) p p).foot → q ∉ wcells W n → m6 q = m4 q := fun q h h' => by
    rw [F6 q h, F5 q fun h => h' (csub h)]
  have g4 : ∀ q, q ∉ (A.sub 0 (k + 1) n p).foot → q ∉ wcells W n → m4 q = m2 q := fun q h h' => by
    rw [F4 q h, F3 q h']
  have s222 : (A.sub (k + 1) (k + 1) p p).foot ⊆ (A.sub 0 (k + 1) n p).foot := by
    rintro q ⟨i, j, hi, hj, rfl⟩
    rw [View.sub_rows] at hi
    rw [View.sub_cols] at hj
    rw [View.at_sub, View.mem_sub_foot wA (by omega) (by omega) (by omega) (by omega)]
    omega
  have nW : ∀ i j, i < n → j < n → A.at' i j ∉ wcells W n := fun i j hi hj =>
    Set.disjoint_left.mp dW (View.at_mem_foot (by omega) (by omega))
  have set7 : ∀ i j, i < n → j < n → ¬ (i = k + 1 ∧ j = k) → (m6.set (A.at' (k + 1) k) b) (A.at' i j) = m6 (A.at' i j) := by
    intro i j hi hj hne
    refine Mem.set_ne _ _ fun e => ?_
    have := View.at_inj wA (by omega) (by omega) (by omega) (by omega) e
    omega
  refine ⟨hessNew n k f u t b, t, ?_, ?_, ?_, ?_, hessNew_step hk H⟩
  · intro i j hi hj
    rw [hr] at hi
    rw [hc] at hj
    have n22 : ¬ (k < i ∧ k < j) → A.at' i j ∉ (A.sub (k + 1) (k + 1) p p).foot := fun h h' => by
      rw [View.mem_sub_foot wA (by omega) (by omega) (by omega) (by omega)] at h'; omega
    have n2 : ¬ k < j → A.at' i j ∉ (A.sub 0 (k + 1) n p).foot := fun h h' => by
      rw [View.mem_sub_foot wA (by omega) (by omega) (by omega) (by omega)] at h'; omega
    unfold hessNew
    simp only
    by_cases c1 : j < k
    · rw [if_pos c1, set7 i j hi hj (by omega), g6 _ (n22 (by omega)) (nW i j hi hj), g4 _ (n2 (by omega)) (nW i j hi hj),
        keep2 i j hi hj (by omega)]
    · rw [if_neg c1]
      by_cases c2 : j = k
      · subst c2
        rw [if_pos rfl]
        by_cases c3 : i ≤ j
        · rw [if_pos c3, set7 i j hi hj (by omega), g6 _ (n22 (by omega)) (nW i j hi hj), g4 _ (n2 (by omega)) (nW i j hi hj),
            keep2 i j hi hj (by omega)]
        · rw [if_neg c3]
          by_cases c4 : i = j + 1
          · rw [if_pos c4, c4, Mem.set_same]
          · rw [if_neg c4, set7 i j hi hj (by omega)]
            have := (holdsV_iff (Or.inr rfl)).mp u6 (i - j - 1) 0 (by rw [View.sub_rows]; omega) Nat.one_pos
            rw [View.at_sub, show j + 1 + (i - j - 1) = i by omega] at this
            exact this
      · rw [if_neg c2, set7 i j hi hj (by omega)]
        by_cases c3 : i ≤ k
        · rw [if_pos c3, g6 _ (n22 (by omega)) (nW i j hi hj)]
          have := hA4 i (j - k - 1) (by rw [View.sub_rows]; omega) (by rw [View.sub_cols]; omega)
          rw [View.at_sub, Nat.zero_add, show k + 1 + (j - k - 1) = j by omega] at this
          rw [this]
          simp only [Bool.false_eq_true, if_false]
          rw [show k + 1 + (j - k - 1) = j by omega, ← hp]
          congr 1
          ring
        · rw [if_neg c3]
          have := hA6 (i - k - 1) (j - k - 1) (by rw [View.sub_rows]; omega) (by rw [View.sub_cols]; omega)
          rw [View.at_sub, show k + 1 + (j - k - 1) = j by omega, show k + 1 + (i - k - 1) = i by omega] at this
          rw [this]
          simp only [if_true]
          rw [show k + 1 + (j - k - 1) = j by omega, show k + 1 + (i - k - 1) = i by omega, ← hp]
          congr 1
          ring
  · have ne : tau.at' k 0 ≠ A.at' (k + 1) k := fun e => dt (e ▸ s21 m21)
    rw [Mem.set_ne _ _ ne, g6 _ (fun h => dt (s22 h)) dtW, g4 _ (fun h => dt (s2 h)) dtW, tt2]
  · intro q hq
    have hin : W + q ∈ wcells W n := ⟨by omega, by omega⟩
    have nA : W + q ∉ A.foot := fun h => Set.disjoint_left.mp dW h hin
    have ne : W + q ≠ A.at' (k + 1) k := fun e => nA (e ▸ s21 m21)
    rw [Mem.set_ne _ _ ne, F6 _ fun h => nA (s22 h)]
    by_cases c : q < p
    · have := (holdsV_iff (Or.inr rfl)).mp hz5 q 0 c Nat.one_pos
      exact ⟨_, by simpa [View.at'] using this⟩
    · rw [F5 _ fun h => by have := h.2; omega, F4 _ fun h => nA (s2 h)]
      exact WAlloc.of_holds hy3 q hq
  · have f1 : Frame (A.foot ∪ {tau.at' k 0} ∪ wcells W n) m m2 := F2.mono fun q h => h.elim (fun h => Or.inl (Or.inl (s21 h)))
      fun h => Or.inl (Or.inr h)
    refine f1.trans (Frame.trans (F3.mono fun q h => Or.inr h) (Frame.trans (F4.mono fun q h => Or.inl (Or.inl (s2 h)))
      (Frame.trans (F5.mono fun q h => Or.inr (csub h)) (Frame.trans (F6.mono fun q h => Or.inl (Or.inl (s22 h)))
      (Frame.set (Or.inl (Or.inl (s21 m21))) _)))))

theorem reflRt_eq {α : Type} [CommRing α] (n : Nat) (t : α) (w : Nat → α) (b : Nat → Nat → α) (i j : Nat) :
    reflRt n t w b i j = refl n t w (fun a c => b c a) j i := by
  unfold reflRt refl
  rw [sum_congr rfl fun l _ => mul_comm (b i l) (w l)]
  ring

theorem reflRt_refl {α : Type} [CommRing α] (n : Nat) (t s : α) (w v : Nat → α) (b : Nat → Nat → α) (i j : Nat) :
    reflRt n t w (refl n s v b) i j = refl n s v (reflRt n t w b) i j := by
  have e1 : ∑ l ∈ range n, (b i l - s * v i * ∑ q ∈ range n, v q * b q l) * w l =
      ∑ l ∈ range n, b i l * w l - s * v i * ∑ l ∈ range n, ∑ q ∈ range n, v q * b q l * w l := by
    rw [mul_sum, ← sum_sub_distrib]
    refine sum_congr rfl fun l _ => ?_
    rw [← sum_mul]
    ring
  have e2 : ∑ q ∈ range n, v q * (b q j - t * (∑ l ∈ range n, b q l * w l) * w j) =
      ∑ q ∈ range n, v q * b q j - t * w j * ∑ l ∈ range n, ∑ q ∈ range n, v q * b q l * w l := by
    rw [sum_comm, mul_sum, ← sum_sub_distrib]
    refine sum_congr rfl fun q _ => ?_
    rw [sum_congr rfl fun l _ => mul_assoc (v q) (b q l) (w l), ← mul_sum]
    ring
  unfold reflRt refl
  rw [e1, e2]
  ring

theorem reflConj_congr {α : Type} [CommRing α] {n : Nat} {t : α} {w w' : Nat → α} {b b' : Nat → Nat → α} {i j : Nat} (hi : i < n) (hj : j < n)
    (hw : ∀ l, l < n → w l = w' l) (hb : ∀ i j, i < n → j < n → b i j = b' i j) : reflConj n t w b i j = reflConj n t w' b' i j := by
  unfold reflConj
  refine refl_congr hi hw fun l hl => ?_
  rw [reflRt_eq, reflRt_eq]
  exact refl_congr hj hw fun q hq => hb l q hl hq

theorem reflConj_reflConj {α : Type} [CommRing α] {n : Nat} {t : α} {w : Nat → α} (h : t = 0 ∨ t * ∑ l ∈ range n, w l ^ 2 = 2)
    (b : Nat → Nat → α) (i j : Nat) : reflConj n t w (reflConj n t w b) i j = b i j := by
  unfold reflConj
  have : reflRt n t w (refl n t w (reflRt n t w b)) = refl n t w b := by
    funext i j
    rw [reflRt_refl]
    congr 1
    funext i j
    rw [reflRt_eq]
    have e : (fun a c => reflRt n t w b c a) = refl n t w fun a c => b c a := by
      funext a c
      exact reflRt_eq n t w b c a
    rw [e, refl_refl h]
  rw [this, refl_refl h]

theorem hessTo_congr {α : Type} [CommRing α] {n : Nat} {f f' b b' : Nat → Nat → α} {t t' : Nat → α} : ∀ (k : Nat), (∀ c, c < k → t c = t' c) →
    (∀ i c, i < n → c < k → f i c = f' i c) → (∀ i j, i < n → j < n → b i j = b' i j) → ∀ i j, i < n → j < n →
    hessTo n k t f b i j = hessTo n k t' f' b' i j
  | 0, _, _, hb => hb
  | k + 1, ht, hf, hb => fun i j hi hj => by
    unfold hessTo
    rw [ht k (by omega)]
    refine reflConj_congr hi hj (fun l hl => ?_) (hessTo_congr k (fun c h => ht c (by omega)) (fun i c h h' => hf i c h (by omega)) hb)
    unfold hessw
    rw [hf l k hl (by omega)]

theorem hessFrom_congr {α : Type} [CommRing α] {n : Nat} {f : Nat → Nat → α} {t : Nat → α} : ∀ (k : Nat) (b b' : Nat → Nat → α),
    (∀ i j, i < n → j < n → b i j = b' i j) → ∀ i j, i < n → j < n → hessFrom n k t f b i j = hessFrom n k t f b' i j
  | 0, _, _, hb => hb
  | k + 1, b, b', hb => fun i j hi hj => by
    unfold hessFrom
    exact hessFrom_congr k _ _ (fun i j hi hj => reflConj_congr hi hj (fun _ _ => rfl) hb) i j hi hj

theorem hessFrom_hessTo {α : Type} [CommRing α] {n : Nat} {f : Nat → Nat → α} {t : Nat → α} : ∀ (k : Nat) (b : Nat → Nat → α),
    (∀ c, c < k → t c = 0 ∨ t c * ∑ l ∈ range n, hessw f c l ^ 2 = 2) → hessFrom n k t f (hessTo n k t f b) = b
  | 0, _, _ => rfl
  | k + 1, b, h => by
    have e : reflConj n (t k) (hessw f k) (reflConj n (t k) (hessw f k) (hessTo n k t f b)) = hessTo n k t f b := by
      funext i j
      exact reflConj_reflConj (h k (by omega)) _ i j
    unfold hessFrom hessTo
    rw [e]
    exact hessFrom_hessTo k b fun c hc => h c (by omega)

/-- State after `k` steps. -/
structure HessInv (n k : Nat) (f0 f : Nat → Nat → ℝ) (t : Nat → ℝ) : Prop where
  prod : ∀ i j, i < n → j < n → hessTo n k t f f0 i j = hessMid k f i j
  norm : ∀ c, c < k → t c = 0 ∨ t c * ∑ l ∈ range n, hessw f c l ^ 2 = 2
  last : ∀ c, c < k → c + 2 = n → t c = 0

theorem HessInv.step {n k : Nat} {f0 f f' : Nat → Nat → ℝ} {t : Nat → ℝ} {tk : ℝ} (h : HessInv n k f0 f t) (hs : HessStep n k f f' tk) :
    HessInv n (k + 1) f0 f' (Function.update t k tk) := by
  refine ⟨?_, ?_, fun c hc hn => ?_⟩
  rotate_left 2
  · by_cases e : c = k
    · subst e
      rw [Function.update_self]
      exact hs.last hn
    · rw [Function.update_of_ne e]
      exact h.last c (by omega) hn
  · intro i j hi hj
    rw [← hs.app i j hi hj]
    unfold hessTo
    rw [Function.update_self]
    refine reflConj_congr hi hj (fun _ _ => rfl) fun i j hi hj => ?_
    rw [← h.prod i j hi hj]
    exact hessTo_congr k (fun c hc => Function.update_of_ne (Nat.ne_of_lt hc) _ _) (fun i c hi hc => hs.keep i c hi hc) (fun _ _ _ _ => rfl) i j hi hj
  · intro c hc
    by_cases e : c = k
    · subst e
      rw [Function.update_self]
      exact hs.norm
    · rw [Function.update_of_ne e]
      rcases h.norm c (by omega) with h | h
      · exact Or.inl h
      · right
        rw [← h]
        congr 1
        refine sum_congr rfl fun l hl => ?_
        unfold hessw
        rw [hs.keep l c (mem_range.mp hl) (by omega)]

theorem unblkHess_spec {safmin : ℝ} (nonneg : Bool) (h0 : 0 < safmin) (h1 : safmin < 1) (ab : ℝ → ℝ) {env : Env}
    (hmin : 2 ≤ env.blas2min ∨ (env.naive = true ∧ env.recursive = false)) {fuel : Nat} {m : Mem ℝ} {A tau : View} {W n : Nat}
    {f0 : Nat → Nat → ℝ} {s : Nat → ℝ} (hr : A.rows = n) (hc : A.cols = n) (hf : n < fuel) (wA : A.WF)
    (hA : Holds m A f0) (ht : ∀ k, k + 1 < n → m (tau.at' k 0) = some (s k)) (hW : WAlloc m W n)
    (dt : ∀ k, k + 1 < n → tau.at' k 0 ∉ A.foot)
    (dW : Disjoint A.foot (wcells W n)) (dtW : ∀ k, k + 1 < n → tau.at' k 0 ∉ wcells W n) :
    Runs (unblkHess safmin nonneg ab env fuel m A tau W 0) (fun m' => ∃ f t, Holds m' A f ∧
      (∀ k, k + 1 < n → m' (tau.at' k 0) = some (t k)) ∧ WAlloc m' W n ∧
      Frame (A.foot ∪ {p | ∃ k, k + 1 < n ∧ p = tau.at' k 0} ∪ wcells W n) m m' ∧
      HessInv n (n - 1) f0 f t) := by
  unfold unblkHess
  rw [hr, hc, show min (n - 0 - 1) n = n - 1 by omega]
  refine Runs.bind (P := fun r => ∃ f t, Holds r.2 A f ∧ (∀ k, k + 1 < n → r.2 (tau.at' k 0) = some (t k)) ∧ WAlloc r.2 W n ∧
      Frame (A.foot ∪ {p | ∃ k, k + 1 < n ∧ p = tau.at' k 0} ∪ wcells W n) m r.2 ∧ HessInv n (n - 1) f0 f t) ?_ ?_
  · refine Runs.forUp1 (i := 0) (n := n - 1) (I := fun k m' => ∃ f t, Holds m' A f ∧ (∀ k, k + 1 < n → m' (tau.at' k 0) = some (t k)) ∧
      WAlloc m' W n ∧ Frame (A.foot ∪ {p | ∃ k, k + 1 < n ∧ p = tau.at' k 0} ∪ wcells W n) m m' ∧
      HessInv n k f0 f t) (Nat.zero_le _) ?_ ?_ (fun st h => h)
    · exact ⟨f0, s, hA, ht, hW, Frame.refl _ _, fun i j _ _ => by simp [hessTo, hessMid], fun l hl => by omega, fun l hl => by omega⟩
    · rintro k m1 - hk ⟨f, t, hA1, ht1, hW1, F1, hI⟩
      have hk' : k + 1 < n := by omega
      refine (hessStep_spec nonneg h0 h1 ab hmin hr hc hf wA hk' hA1 (ht1 k hk') hW1 (dt k hk') dW (dtW k hk')).mono ?_
      rintro m2 ⟨f', tk, hA2, ht2, hW2, F2, hs⟩
      refine ⟨f', Function.update t k tk, hA2, ?_, hW2, F1.trans (F2.mono ?_), hI.step hs⟩
      · intro l hl
        by_cases c : l = k
        · subst c; rw [Function.update_self]; exact ht2
        · rw [Function.update_of_ne c, F2]
          · exact ht1 l hl
          · rintro ((h | h) | h)
            · exact dt l hl h
            · have h := Set.mem_singleton_iff.mp h
              simp only [View.at', zero_mul, add_zero] at h
              omega
            · exact dtW l hl h
      · rintro p ((h | h) | h)
        · exact Or.inl (Or.inl h)
        · exact Or.inl (Or.inr ⟨k, hk', h⟩)
        · exact Or.inr h
  · rintro ⟨k, m1⟩ h
    exact Runs.pure h

end Armas
