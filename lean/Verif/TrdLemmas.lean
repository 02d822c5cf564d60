import Verif.Trd
import Verif.TrdSpec
import Verif.HessLemmas

/-!
# Lemmas about the reduction to tridiagonal form
-/

namespace Armas

open Finset

theorem reflConj_symm {α : Type} [CommRing α] (n : Nat) (t : α) (w : Nat → α) (B : Nat → Nat → α) (hB : ∀ i j, B i j = B j i) (i j : Nat) :
    reflConj n t w B i j = B i j - t * (∑ l ∈ range n, B i l * w l) * w j - w i * (t * ∑ l ∈ range n, B j l * w l) +
      t * (∑ l ∈ range n, w l * (t * ∑ q ∈ range n, B l q * w q)) * w i * w j := by
  have e : ∑ l ∈ range n, w l * (B l j - t * (∑ q ∈ range n, B l q * w q) * w j) =
      ∑ l ∈ range n, B j l * w l - (∑ l ∈ range n, w l * (t * ∑ q ∈ range n, B l q * w q)) * w j := by
    rw [sum_mul, ← sum_sub_distrib]
    refine sum_congr rfl fun l _ => ?_
    rw [hB l j]
    ring
  unfold reflConj refl reflRt
  rw [e]
  ring

/-- Matrix after `k` steps: zeros in the place of the vectors. -/
def trdMid {α : Type} [CommRing α] (k : Nat) (f : Nat → Nat → α) (i j : Nat) : α :=
  if min i j < k ∧ min i j + 1 < max i j then 0 else f (max i j) (min i j)

theorem trdMid_symm {α : Type} [CommRing α] (k : Nat) (f : Nat → Nat → α) (i j : Nat) : trdMid k f i j = trdMid k f j i := by
  unfold trdMid
  rw [min_comm, max_comm]

theorem trdMid_le {α : Type} [CommRing α] (k : Nat) (f : Nat → Nat → α) {i j : Nat} (h : j ≤ i) :
    trdMid k f i j = if j < k ∧ j + 1 < i then 0 else f i j := by
  unfold trdMid
  rw [Nat.min_eq_right h, Nat.max_eq_left h]

/-- Result of step `k`. -/
structure TrdStep (n k : Nat) (f f' : Nat → Nat → ℝ) (t : ℝ) : Prop where
  keep : ∀ i j, i < n → j < k → f' i j = f i j
  norm : t = 0 ∨ t * ∑ l ∈ range n, hessw f' k l ^ 2 = 2
  app : ∀ i j, i < n → j < n → reflConj n t (hessw f' k) (trdMid k f) i j = trdMid (k + 1) f' i j
  last : n ≤ k + 2 → t = 0

/-- `t A22 u`. -/
def trdY (p k : Nat) (f : Nat → Nat → ℝ) (u : Nat → ℝ) (t : ℝ) (i : Nat) : ℝ :=
  t * ∑ l ∈ range p, Armas.symm false (fun i j => f (k + 1 + i) (k + 1 + j)) i l * u l

/-- `y - (beta / 2) u`. -/
noncomputable def trdW (p k : Nat) (f : Nat → Nat → ℝ) (u : Nat → ℝ) (t : ℝ) (i : Nat) : ℝ :=
  trdY p k f u t i + -(1 / 2) * (t * ∑ l ∈ range p, u l * trdY p k f u t l) * u i

/-- The matrix after step `k`. -/
noncomputable def trdNew (p k : Nat) (f : Nat → Nat → ℝ) (u : Nat → ℝ) (t b : ℝ) (i j : Nat) : ℝ :=
  if j < k then f i j else if j = k then (if i ≤ k then f i k else if i = k + 1 then b else u (i - k - 1))
  else f i j - (u (i - k - 1) * trdW p k f u t (j - k - 1) + trdW p k f u t (i - k - 1) * u (j - k - 1))

theorem sum_hessw {n k : Nat} {u w : Nat → ℝ} (hk : k < n) (hw : ∀ i, i < n → w i = if i ≤ k then 0 else u (i - k - 1)) (c : Nat → ℝ) :
    ∑ l ∈ range n, c l * w l = ∑ l ∈ range (n - k - 1), c (k + 1 + l) * u l := by
  obtain ⟨p, rfl⟩ : ∃ p, n = k + 1 + p := ⟨n - k - 1, by omega⟩
  rw [sum_range_add, sum_eq_zero (s := range (k + 1)) fun l hl => by
    have := mem_range.mp hl
    rw [hw l (by omega), if_pos (by omega), mul_zero], zero_add, show k + 1 + p - k - 1 = p by omega]
  refine sum_congr rfl fun l hl => ?_
  have := mem_range.mp hl
  rw [hw _ (by omega), if_neg (by omega), show k + 1 + l - k - 1 = l by omega]

theorem trdNew_step {n k : Nat} {f : Nat → Nat → ℝ} {u : Nat → ℝ} {t b : ℝ} (hk : k < n)
    (H : IsHouseVec (n - k - 1) (fun i => f (k + 1 + i) k) u t b) (H0 : n = k + 1 → t = 0) : TrdStep n k f (trdNew (n - k - 1) k f u t b) t := by
  set p := n - k - 1 with hp
  have hw : ∀ i, i < n → hessw (trdNew p k f u t b) k i = if i ≤ k then 0 else u (i - k - 1) := by
    intro i _
    unfold hessw
    by_cases c1 : i ≤ k
    · rw [if_pos c1, if_pos c1]
    · rw [if_neg c1, if_neg c1]
      by_cases c2 : i = k + 1
      · rw [if_pos c2, c2, show k + 1 - k - 1 = 0 by omega, H.one]
      · rw [if_neg c2]
        unfold trdNew
        rw [if_neg (by omega), if_pos rfl, if_neg c1, if_neg c2]
  have hsum := sum_hessw hk hw
  rw [← hp] at hsum
  refine ⟨?_, ?_, ?_, fun h => ?_⟩
  · intro i j _ hj
    unfold trdNew
    rw [if_pos hj]
  · rcases H.norm with h | h
    · exact Or.inl h
    · right
      rw [← h]
      congr 1
      simp only [pow_two]
      rw [hsum]
      refine sum_congr rfl fun l hl => ?_
      have := mem_range.mp hl
      rw [hw _ (by omega), if_neg (by omega), show k + 1 + l - k - 1 = l by omega]
  · have hY : ∀ i, k < i → t * ∑ l ∈ range n, trdMid k f i l * hessw (trdNew p k f u t b) k l = trdY p k f u t (i - k - 1) := by
      intro i hi
      rw [hsum, trdY]
      congr 1
      refine sum_congr rfl fun l _ => ?_
      congr 1
      unfold Armas.symm trdMid
      simp only [Bool.false_eq_true, if_false]
      rw [if_neg (by omega), show k + 1 + (i - k - 1) = i by omega]
      by_cases c : l ≤ i - k - 1
      · rw [if_pos c, Nat.max_eq_left (by omega), Nat.min_eq_right (by omega)]
      · rw [if_neg c, Nat.max_eq_right (by omega), Nat.min_eq_left (by omega)]
    have hbeta : ∑ l ∈ range n, hessw (trdNew p k f u t b) k l * (t * ∑ q ∈ range n, trdMid k f l q * hessw (trdNew p k f u t b) k q) =
        ∑ l ∈ range p, u l * trdY p k f u t l := by
      rw [sum_congr rfl fun l _ => mul_comm _ _, hsum fun l => t * ∑ q ∈ range n, trdMid k f l q * hessw (trdNew p k f u t b) k q]
      refine sum_congr rfl fun l _ => ?_
      rw [hY _ (by omega), show k + 1 + l - k - 1 = l by omega, mul_comm]
    have half : ∀ i j, i < n → j ≤ i → reflConj n t (hessw (trdNew p k f u t b) k) (trdMid k f) i j = trdMid (k + 1) (trdNew p k f u t b) i j := by
      intro i j hi hj
      rw [reflConj_symm n t _ _ (trdMid_symm k f), hbeta, hw i hi, hw j (by omega), trdMid_le _ _ hj, trdMid_le _ _ hj]
      rcases lt_trichotomy j k with c | c | c
      · have e3 : ∑ l ∈ range n, trdMid k f j l * hessw (trdNew p k f u t b) k l = 0 := by
          rw [hsum]
          refine sum_eq_zero fun l _ => ?_
          unfold trdMid
          rw [if_pos (by omega), zero_mul]
        have e4 : trdNew p k f u t b i j = f i j := by unfold trdNew; rw [if_pos c]
        rw [e3, e4, if_pos (show j ≤ k by omega)]
        by_cases c2 : j + 1 < i
        · rw [if_pos (show j < k ∧ j + 1 < i from ⟨c, c2⟩), if_pos (show j < k + 1 ∧ j + 1 < i from ⟨by omega, c2⟩)]; ring
        · rw [if_neg (show ¬ (j < k ∧ j + 1 < i) by omega), if_neg (show ¬ (j < k + 1 ∧ j + 1 < i) by omega)]; ring
      · subst c
        have e4 : trdNew p j f u t b i j = if i ≤ j then f i j else if i = j + 1 then b else u (i - j - 1) := by
          unfold trdNew; rw [if_neg (lt_irrefl j), if_pos rfl]
        have e3 : ∑ l ∈ range n, trdMid j f j l * hessw (trdNew p j f u t b) j l = ∑ l ∈ range p, u l * f (j + 1 + l) j := by
          rw [hsum]
          refine sum_congr rfl fun l _ => ?_
          rw [trdMid_symm, trdMid_le _ _ (by omega), if_neg (by omega), mul_comm]
        rw [e3, e4, if_pos (le_refl j), if_neg (show ¬ (j < j ∧ j + 1 < i) by omega)]
        by_cases c2 : i ≤ j
        · rw [if_pos c2, if_pos c2, if_neg (show ¬ (j < j + 1 ∧ j + 1 < i) by omega)]; ring
        · rw [if_neg c2, if_neg c2]
          have := H.app (i - j - 1) (by omega)
          beta_reduce at this
          rw [show j + 1 + (i - j - 1) = i by omega] at this
          by_cases c3 : i = j + 1
          · rw [if_pos (by omega)] at this
            rw [if_neg (show ¬ (j < j + 1 ∧ j + 1 < i) by omega), if_pos c3]
            linear_combination this
          · rw [if_neg (by omega)] at this
            rw [if_pos (show j < j + 1 ∧ j + 1 < i by omega)]
            linear_combination this
      · have e4 : trdNew p k f u t b i j = f i j - (u (i - k - 1) * trdW p k f u t (j - k - 1) + trdW p k f u t (i - k - 1) * u (j - k - 1)) := by
          unfold trdNew; rw [if_neg (by omega), if_neg (by omega)]
        rw [hY i (by omega), hY j c, e4, if_neg (show ¬ i ≤ k by omega), if_neg (show ¬ j ≤ k by omega), if_neg (show ¬ (j < k ∧ j + 1 < i) by omega),
          if_neg (show ¬ (j < k + 1 ∧ j + 1 < i) by omega)]
        unfold trdW
        ring
    intro i j hi hj
    rcases le_total j i with h | h
    · exact half i j hi h
    · rw [trdMid_symm (k + 1), ← half j i hj h, reflConj_symm n t _ _ (trdMid_symm k f), reflConj_symm n t _ _ (trdMid_symm k f), trdMid_symm k f i j]
      ring
  · rcases Nat.lt_or_ge (k + 1) n with h' | h'
    · exact H.last (by omega)
    · exact H0 (by omega)

theorem houseVec_zero {safmin : ℝ} (nonneg : Bool) {m : Mem ℝ} {x : View} {tau : Nat} {t0 : ℝ} (hs : x.size = 0) (ht : m tau = some t0) :
    Runs (houseVec safmin m x tau nonneg) (fun m' => m' = m.set tau 0) := by
  unfold houseVec
  rw [if_pos hs]
  exact Runs.wr ht rfl

theorem houseVec_spec' {safmin : ℝ} (nonneg : Bool) (h0 : 0 < safmin) (h1 : safmin < 1) {m : Mem ℝ} {x : View} {tau p : Nat} {g : Nat → ℝ}
    {t0 : ℝ} (hc : x.cols = 1) (hr : x.rows = p) (wx : x.WF) (hx : Holds m x (fun i _ => g i)) (ht : m tau = some t0) (dt : tau ∉ x.foot) :
    Runs (houseVec safmin m x tau nonneg) (fun m' => ∃ u t b, m' tau = some t ∧ (0 < p → m' (x.at' 0 0) = some b) ∧
      (∀ l, 0 < l → l < p → m' (x.at' l 0) = some (u l)) ∧ Frame (x.foot ∪ {tau}) m m' ∧ IsHouseVec p g u t b ∧ (p = 0 → t = 0)) := by
  rcases Nat.eq_zero_or_pos p with h | h
  · refine (houseVec_zero nonneg (by rw [View.size, hr, h, Nat.zero_mul]) ht).mono ?_
    rintro m' rfl
    refine ⟨fun l => if l = 0 then 1 else 0, 0, 0, Mem.set_same _ _ _, fun h' => by omega, fun l _ h' => by omega,
      Frame.set (Or.inr rfl) _, ⟨rfl, Or.inl rfl, fun i hi => by omega, fun _ => rfl⟩, fun _ => rfl⟩
  · refine (houseVec_spec nonneg h0 h1 hc hr h wx hx ht dt).mono ?_
    rintro m' ⟨u, t, b, k1, k2, k3, k4, k5⟩
    exact ⟨u, t, b, k1, fun _ => k2, k3, k4, k5, fun h' => by omega⟩

theorem trdStep_spec {safmin : ℝ} (nonneg : Bool) (h0 : 0 < safmin) (h1 : safmin < 1) (ab : ℝ → ℝ) {env : Env}
    (hmin : 2 ≤ env.blas2min) {fuel : Nat} {m : Mem ℝ} {A tau : View} {W k n : Nat}
    {f : Nat → Nat → ℝ} {t0 : ℝ} (hr : A.rows = n) (hc : A.cols = n) (hf : n + 1 < fuel) (wA : A.WF) (hk : k < n)
    (hA : HoldsOn m A (InTri false false) f) (ht : m (tau.at' k 0) = some t0) (hW : WAlloc m W n)
    (dt : tau.at' k 0 ∉ A.footOn (InTri false false))
    (dW : Disjoint (A.footOn (InTri false false)) (wcells W n)) (dtW : tau.at' k 0 ∉ wcells W n) :
    Runs (trdStep safmin nonneg ab env fuel A tau W k m) (fun m' => ∃ f' t, HoldsOn m' A (InTri false false) f' ∧ m' (tau.at' k 0) = some t ∧
      WAlloc m' W n ∧ Frame (A.footOn (InTri false false) ∪ {tau.at' k 0} ∪ wcells W n) m m' ∧ TrdStep n k f f' t) := by
  unfold trdStep
  dsimp only
  rw [hr, hc, View.sub_rows]
  set p := n - k - 1 with hp
  have tri : ∀ i j, InTri false false i j ↔ j ≤ i := fun i j => by simp [InTri]
  have s21 : (A.sub (k + 1) k p 1).foot ⊆ A.footOn (InTri false false) := View.foot_sub_footOn (by omega) (by omega) fun i j _ _ => by
    rw [tri]; omega
  have s22 : (A.sub (k + 1) (k + 1) p p).footOn (InTri false false) ⊆ A.footOn (InTri false false) := View.footOn_sub (by omega) (by omega)
    fun i j _ _ h => by rw [tri] at h ⊢; omega
  have wsub : ∀ r c nr nc, r + nr ≤ n → c + nc ≤ n → (A.sub r c nr nc).WF := fun r c nr nc h h' => wA.sub (by omega) (by omega)
  have z21 : (A.sub (k + 1) k p 1).size = p := by simp [View.size]
  have e21 : (A.sub (k + 1) k p 1).at' 0 0 = A.at' (k + 1) k := by rw [View.at_sub]; rfl
  have m21 : 0 < p → A.at' (k + 1) k ∈ (A.sub (k + 1) k p 1).foot := fun h => by
    rw [View.mem_sub_foot wA (by omega) (by omega) (by omega) (by omega)]; omega
  have ew : (⟨W, p, p, 1⟩ : View).foot = wcells W p := wview_foot _ _ _
  have csub : wcells W p ⊆ wcells W n := fun p hp => ⟨hp.1, lt_of_lt_of_le hp.2 (by omega)⟩
  have n22 : ∀ i j, i < n → j < n → ¬ (k < j ∧ j ≤ i) → A.at' i j ∉ (A.sub (k + 1) (k + 1) p p).footOn (InTri false false) := by
    rintro i j hi hj hne ⟨i', j', hi', hj', h, e⟩
    rw [View.sub_rows] at hi'
    rw [View.sub_cols] at hj'
    rw [View.at_sub] at e
    rw [tri] at h
    have := View.at_inj wA (by omega) (by omega) (by omega) (by omega) e
    omega
  have d21_22 : Disjoint (A.sub (k + 1) k p 1).foot ((A.sub (k + 1) (k + 1) p p).footOn (InTri false false)) :=
    (View.sub_disj wA (by omega) (by omega) (by omega) (by omega) (by omega)).mono_right (View.footOn_sub_foot _ _)
  have d21W : Disjoint (A.sub (k + 1) k p 1).foot (wcells W p) := (dW.mono_left s21).mono_right csub
  have d22W : Disjoint ((A.sub (k + 1) (k + 1) p p).footOn (InTri false false)) (wcells W p) := (dW.mono_left s22).mono_right csub
  refine Runs.bind (houseVec_spec' nonneg h0 h1 (g := fun i => f (k + 1 + i) k) rfl rfl
    (wsub _ _ _ _ (by omega) (by omega)) (fun i j hi hj => by
      rw [View.sub_rows] at hi
      rw [View.sub_cols] at hj
      obtain rfl : j = 0 := by omega
      rw [View.at_sub]
      exact hA _ _ (by omega) (by omega) (by rw [tri]; omega)) ht (fun h => dt (s21 h))) ?_
  rintro m1 ⟨u, t, b, htt, hb, hu, F1, H, H0⟩
  rw [View.sub_rows] at hb hu H H0
  refine Runs.rd_bind htt ?_
  -- unit vector
  refine Runs.bind (P := fun v0 => 0 < p → v0 = b) ?_ ?_
  · unfold getOr0
    by_cases c : p = 0
    · rw [if_pos (by rw [z21]; exact c)]
      exact Runs.ok fun h => by omega
    · rw [if_neg (by rw [z21]; exact c)]
      exact Runs.rd (hb (by omega)) fun _ => rfl
  intro v0 hv0
  refine Runs.bind (P := fun m2 => HoldsV m2 (A.sub (k + 1) k p 1) u ∧ Frame (A.sub (k + 1) k p 1).foot m1 m2) ?_ ?_
  · unfold setIf
    by_cases c : p = 0
    · rw [if_pos (by rw [z21]; exact c)]
      exact Runs.ok ⟨fun l hl => by omega, Frame.refl _ _⟩
    · rw [if_neg (by rw [z21]; exact c)]
      refine Runs.wr (hb (by omega)) ⟨(holdsV_iff (Or.inr rfl)).mpr fun i j hi hj => ?_, Frame.set (View.at_mem_foot (by rw [View.sub_rows]; omega) Nat.one_pos) _⟩
      rw [View.sub_rows] at hi
      rw [View.sub_cols] at hj
      obtain rfl : j = 0 := by omega
      by_cases c : i = 0
      · subst c
        rw [Mem.set_same]
        show some (1 : ℝ) = some (u 0)
        rw [H.one]
      · have ne : (A.sub (k + 1) k p 1).at' i 0 ≠ (A.sub (k + 1) k p 1).at' 0 0 := fun e => by
          rw [View.at_sub, View.at_sub] at e
          have := View.at_inj wA (by omega) (by omega) (by omega) (by omega) e
          omega
        rw [Mem.set_ne _ _ ne, hu i (by omega) hi]
        rfl
  rintro m2 ⟨u2, F2⟩
  have F12 : Frame ((A.sub (k + 1) k p 1).foot ∪ {tau.at' k 0}) m m2 := F1.trans (F2.mono Set.subset_union_left)
  have keep2 : ∀ i j, i < n → j < n → j ≤ i → ¬ (j = k ∧ k < i) → m2 (A.at' i j) = some (f i j) := by
    intro i j hi hj hji hne
    rw [F12, hA i j (by omega) (by omega) (by rw [tri]; exact hji)]
    rintro (h | h)
    · rw [View.mem_sub_foot wA (by omega) (by omega) (by omega) (by omega)] at h; omega
    · exact dt (Set.mem_singleton_iff.mp h ▸ ⟨i, j, by omega, by omega, by rw [tri]; exact hji, rfl⟩)
  have tt2 : m2 (tau.at' k 0) = some t := by
    rw [F2 _ fun h => dt (s21 h), htt]
  have hA2 : HoldsOn m2 (A.sub (k + 1) (k + 1) p p) (InTri false false) (fun i j => f (k + 1 + i) (k + 1 + j)) := by
    intro i j hi hj hs
    rw [View.sub_rows] at hi
    rw [View.sub_cols] at hj
    rw [tri] at hs
    rw [View.at_sub]
    exact keep2 _ _ (by omega) (by omega) (by omega) (by omega)
  have hW2 : WAlloc m2 W n := hW.frame F12 (by
    rw [Set.disjoint_union_right]
    exact ⟨(dW.mono_left s21).symm, Set.disjoint_singleton_right.mpr dtW⟩)
  obtain ⟨w, hw⟩ := (hW2.le (n' := p) (by omega)).wholds p
  have zw : (⟨W, p, p, 1⟩ : View).size = p := by simp [View.size]
  -- y = t A22 u
  refine Runs.bind (Props.C14_mvmult_sym_partial ab hmin 0 t (fl := { lower := true }) rfl (A := A.sub (k + 1) (k + 1) p p) (Y := ⟨W, p, p, 1⟩)
    (X := A.sub (k + 1) k p 1) (Or.inr rfl) (Or.inr (le_refl 1)) (Or.inr rfl) (by rw [zw]; rfl) (by rw [zw]; rfl) (by rw [zw, z21])
    (by rw [zw]; omega) hw u2 hA2 (by rw [ew]; exact d22W) (by rw [ew]; exact d21W)) ?_
  rintro ⟨e3, m3⟩ ⟨-, hy3, F3⟩
  dsimp only at hy3 F3 ⊢
  rw [zw] at hy3
  rw [ew] at F3
  have hy3' : HoldsV m3 ⟨W, p, p, 1⟩ (trdY p k f u t) := hy3.congr fun i _ => by
    unfold trdY
    ring
  have u3 := u2.frame (Or.inr rfl) F3 d21W
  have hA3 : HoldsOn m3 (A.sub (k + 1) (k + 1) p p) (InTri false false) (fun i j => f (k + 1 + i) (k + 1 + j)) := by
    intro i j hi hj hs
    rw [F3 _ (Set.disjoint_left.mp d22W ⟨i, j, hi, hj, hs, rfl⟩)]
    exact hA2 i j hi hj hs
  -- beta
  rw [Props.C07_dot env.blas1min env.naive (Or.inr rfl) (Or.inr rfl) (by rw [z21, zw]) u3 hy3' fuel (by rw [z21]; omega), Res.ok_bind, z21]
  refine Runs.bind (Props.C06_axpy _ (X := A.sub (k + 1) k p 1) (Y := ⟨W, p, p, 1⟩) (Or.inr rfl) (Or.inr rfl) (Or.inr (le_refl 1)) (by rw [z21, zw])
    u3 hy3' (by rw [ew]; exact d21W)) ?_
  rintro ⟨e4, m4⟩ ⟨-, hy4, F4⟩
  dsimp only at hy4 F4 ⊢
  rw [ew] at F4
  have hy4' : HoldsV m4 ⟨W, p, p, 1⟩ (trdW p k f u t) := hy4.congr fun i _ => by
    unfold trdW
    ring
  have u4 := u3.frame (Or.inr rfl) F4 d21W
  have hA4 : HoldsOn m4 (A.sub (k + 1) (k + 1) p p) (InTri false false) (fun i j => f (k + 1 + i) (k + 1 + j)) := by
    intro i j hi hj hs
    rw [F4 _ (Set.disjoint_left.mp d22W ⟨i, j, hi, hj, hs, rfl⟩)]
    exact hA3 i j hi hj hs
  -- A22
  refine Runs.bind (Props.C15_mvupdate2_sym_partial (Or.inl hmin) 1 (-1) (fl := { lower := true }) (A := A.sub (k + 1) (k + 1) p p)
    (X := A.sub (k + 1) k p 1) (Y := ⟨W, p, p, 1⟩) (by rw [View.sub_rows]; omega) rfl (wsub _ _ _ _ (by omega) (by omega)) (Or.inr rfl) (Or.inr rfl)
    z21 zw hA4 u4 hy4' d21_22 (by rw [ew]; exact d22W.symm)) ?_
  rintro ⟨e5, m5⟩ ⟨-, hA5, F5⟩
  dsimp only at hA5 F5 ⊢
  have u5 := u4.frame (Or.inr rfl) F5 d21_22
  have hy5 := hy4'.frame (Or.inr rfl) F5 (by rw [ew]; exact d22W.symm)
  have g5 : ∀ q, q ∉ (A.sub (k + 1) (k + 1) p p).footOn (InTri false false) → q ∉ wcells W n → m5 q = m2 q := fun q h h' => by
    rw [F5 q h, F4 q fun h => h' (csub h), F3 q fun h => h' (csub h)]
  have nW : ∀ i j, i < n → j < n → j ≤ i → A.at' i j ∉ wcells W n := fun i j hi hj hji =>
    Set.disjoint_left.mp dW ⟨i, j, by omega, by omega, by rw [tri]; exact hji, rfl⟩
  refine Runs.mono (P := fun m' => Frame (A.sub (k + 1) k p 1).foot m5 m' ∧ (0 < p → m' (A.at' (k + 1) k) = some b) ∧
    ∀ q, q ≠ A.at' (k + 1) k → m' q = m5 q) ?_ ?_
  · unfold setIf
    by_cases c : p = 0
    · rw [if_pos (by rw [z21]; exact c)]
      exact Runs.ok ⟨Frame.refl _ _, fun h => by omega, fun _ _ => rfl⟩
    · rw [if_neg (by rw [z21]; exact c), e21]
      have b5 := (holdsV_iff (Or.inr rfl)).mp u5 0 0 (by rw [View.sub_rows]; omega) Nat.one_pos
      rw [e21] at b5
      refine Runs.wr b5 ⟨Frame.set (m21 (by omega)) _, fun _ => ?_, fun q hq => Mem.set_ne _ _ hq⟩
      rw [Mem.set_same, hv0 (by omega)]
  rintro m' ⟨F6, b6, s6⟩
  refine ⟨trdNew p k f u t b, t, ?_, ?_, ?_, ?_, trdNew_step hk H fun h => H0 (by omega)⟩
  · intro i j hi hj hs
    rw [hr] at hi
    rw [hc] at hj
    rw [tri] at hs
    unfold trdNew
    have ne : ¬ (i = k + 1 ∧ j = k) → m' (A.at' i j) = m5 (A.at' i j) := by
      intro hne
      rcases Nat.eq_zero_or_pos p with h | h
      · exact F6 _ fun ⟨i', j', hi', _, _⟩ => by rw [View.sub_rows] at hi'; omega
      · refine s6 _ fun e => ?_
        have := View.at_inj wA (by omega) (by omega) (by omega) (by omega) e
        omega
    by_cases c1 : j < k
    · rw [if_pos c1, ne (by omega), g5 _ (n22 i j hi hj (by omega)) (nW i j hi hj hs), keep2 i j hi hj hs (by omega)]
    · rw [if_neg c1]
      by_cases c2 : j = k
      · subst c2
        rw [if_pos rfl]
        by_cases c3 : i ≤ j
        · rw [if_pos c3, ne (by omega), g5 _ (n22 i j hi hj (by omega)) (nW i j hi hj hs), keep2 i j hi hj hs (by omega)]
        · rw [if_neg c3]
          by_cases c4 : i = j + 1
          · rw [if_pos c4, c4, b6 (by omega)]
          · rw [if_neg c4, ne (by omega)]
            have := (holdsV_iff (Or.inr rfl)).mp u5 (i - j - 1) 0 (by rw [View.sub_rows]; omega) Nat.one_pos
            rw [View.at_sub, show j + 1 + (i - j - 1) = i by omega] at this
            exact this
      · rw [if_neg c2, ne (by omega)]
        have := hA5 (i - k - 1) (j - k - 1) (by rw [View.sub_rows]; omega) (by rw [View.sub_cols]; omega) (by rw [tri]; omega)
        rw [View.at_sub, show k + 1 + (j - k - 1) = j by omega, show k + 1 + (i - k - 1) = i by omega] at this
        rw [this]
        beta_reduce
        rw [show k + 1 + (j - k - 1) = j by omega, show k + 1 + (i - k - 1) = i by omega]
        congr 1
        ring
  · rw [F6 _ fun h => dt (s21 h), g5 _ (fun h => dt (s22 h)) dtW, tt2]
  · intro q hq
    have hin : W + q ∈ wcells W n := ⟨by omega, by omega⟩
    have nA : W + q ∉ A.footOn (InTri false false) := fun h => Set.disjoint_left.mp dW h hin
    rw [F6 _ fun h => nA (s21 h)]
    by_cases c : q < p
    · have := (holdsV_iff (Or.inr rfl)).mp hy5 q 0 c Nat.one_pos
      exact ⟨_, by simpa [View.at'] using this⟩
    · rw [F5 _ fun h => nA (s22 h), F4 _ fun h => by have := h.2; omega, F3 _ fun h => by have := h.2; omega]
      exact hW2 q hq
  · have f1 : Frame (A.footOn (InTri false false) ∪ {tau.at' k 0} ∪ wcells W n) m m2 := F12.mono fun q h => h.elim (fun h => Or.inl (Or.inl (s21 h)))
      fun h => Or.inl (Or.inr h)
    refine f1.trans (Frame.trans (F3.mono fun q h => Or.inr (csub h)) (Frame.trans (F4.mono fun q h => Or.inr (csub h))
      (Frame.trans (F5.mono fun q h => Or.inl (Or.inl (s22 h))) (F6.mono fun q h => Or.inl (Or.inl (s21 h))))))

/-- State after `k` steps. -/
structure TrdInv (n k : Nat) (f0 f : Nat → Nat → ℝ) (t : Nat → ℝ) : Prop where
  prod : ∀ i j, i < n → j < n → hessTo n k t f (symLower f0) i j = trdMid k f i j
  norm : ∀ c, c < k → t c = 0 ∨ t c * ∑ l ∈ range n, hessw f c l ^ 2 = 2
  last : ∀ c, c < k → n ≤ c + 2 → t c = 0

theorem TrdInv.step {n k : Nat} {f0 f f' : Nat → Nat → ℝ} {t : Nat → ℝ} {tk : ℝ} (h : TrdInv n k f0 f t) (hs : TrdStep n k f f' tk) :
    TrdInv n (k + 1) f0 f' (Function.update t k tk) := by
  refine ⟨?_, ?_, fun c hc hn => ?_⟩
  · intro i j hi hj
    rw [← hs.app i j hi hj]
    unfold hessTo
    rw [Function.update_self]
    refine reflConj_congr hi hj (fun _ _ => rfl) fun i j hi hj => ?_
    rw [← h.prod i j hi hj]
    exact hessTo_congr k (fun c hc => Function.update_of_ne (Nat.ne_of_lt hc) _ _) (fun i c hi hc => hs.keep i c hi hc) (fun _ _ _ _ => rfl) i j hi hj
  · intro c hc
    by_cases e : c = k
    · subst e
      rw [Function.update_self]
      exact hs.norm
    · rw [Function.update_of_ne e]
      rcases h.norm c (by omega) with h | h
      · exact Or.inl h
      · right
        rw [← h]
        congr 1
        refine sum_congr rfl fun l hl => ?_
        unfold hessw
        rw [hs.keep l c (mem_range.mp hl) (by omega)]
  · by_cases e : c = k
    · subst e
      rw [Function.update_self]
      exact hs.last hn
    · rw [Function.update_of_ne e]
      exact h.last c (by omega) hn

theorem unblkTrdLower_spec {safmin : ℝ} (nonneg : Bool) (h0 : 0 < safmin) (h1 : safmin < 1) (ab : ℝ → ℝ) {env : Env}
    (hmin : 2 ≤ env.blas2min) {fuel : Nat} {m : Mem ℝ} {A tau : View} {W n : Nat}
    {f0 : Nat → Nat → ℝ} {s : Nat → ℝ} (hr : A.rows = n) (hc : A.cols = n) (htau : tau.size = 0 → n = 0) (hf : n + 1 < fuel) (wA : A.WF)
    (hA : HoldsOn m A (InTri false false) f0) (ht : ∀ k, k < n → m (tau.at' k 0) = some (s k)) (hW : WAlloc m W n)
    (dt : ∀ k, k < n → tau.at' k 0 ∉ A.footOn (InTri false false))
    (dW : Disjoint (A.footOn (InTri false false)) (wcells W n)) (dtW : ∀ k, k < n → tau.at' k 0 ∉ wcells W n) :
    Runs (unblkTrdLower safmin nonneg ab env fuel m A tau W) (fun m' => ∃ f t, HoldsOn m' A (InTri false false) f ∧
      (∀ k, k < n → m' (tau.at' k 0) = some (t k)) ∧ WAlloc m' W n ∧
      Frame (A.footOn (InTri false false) ∪ {p | ∃ k, k < n ∧ p = tau.at' k 0} ∪ wcells W n) m m' ∧
      TrdInv n n f0 f t) := by
  have base : TrdInv n 0 f0 f0 s := ⟨fun i j _ _ => by
    unfold hessTo symLower trdMid
    rw [if_neg (by omega : ¬ (min i j < 0 ∧ min i j + 1 < max i j))]
    by_cases c : j ≤ i
    · rw [Nat.max_eq_left c, Nat.min_eq_right c]
      split_ifs <;> first | rfl | (exfalso; omega) | (congr 1 <;> omega)
    · rw [Nat.max_eq_right (by omega), Nat.min_eq_left (by omega)]
      split_ifs <;> first | rfl | (exfalso; omega) | (congr 1 <;> omega), fun l hl => by omega, fun l hl => by omega⟩
  unfold unblkTrdLower
  by_cases hz : tau.size = 0
  · rw [if_pos hz]
    have hn := htau hz
    subst hn
    exact Runs.ok ⟨f0, s, hA, ht, hW, Frame.refl _ _, base⟩
  rw [if_neg hz, hr, hc, Nat.min_self]
  refine Runs.bind (P := fun r => ∃ f t, HoldsOn r.2 A (InTri false false) f ∧ (∀ k, k < n → r.2 (tau.at' k 0) = some (t k)) ∧ WAlloc r.2 W n ∧
      Frame (A.footOn (InTri false false) ∪ {p | ∃ k, k < n ∧ p = tau.at' k 0} ∪ wcells W n) m r.2 ∧ TrdInv n n f0 f t) ?_ ?_
  · refine Runs.forUp1 (i := 0) (n := n) (I := fun k m' => ∃ f t, HoldsOn m' A (InTri false false) f ∧ (∀ k, k < n → m' (tau.at' k 0) = some (t k)) ∧
      WAlloc m' W n ∧ Frame (A.footOn (InTri false false) ∪ {p | ∃ k, k < n ∧ p = tau.at' k 0} ∪ wcells W n) m m' ∧
      TrdInv n k f0 f t) (Nat.zero_le _) ?_ ?_ (fun st h => h)
    · exact ⟨f0, s, hA, ht, hW, Frame.refl _ _, base⟩
    · rintro k m1 - hk ⟨f, t, hA1, ht1, hW1, F1, hI⟩
      refine (trdStep_spec nonneg h0 h1 ab hmin hr hc hf wA hk hA1 (ht1 k hk) hW1 (dt k hk) dW (dtW k hk)).mono ?_
      rintro m2 ⟨f', tk, hA2, ht2, hW2, F2, hs⟩
      refine ⟨f', Function.update t k tk, hA2, ?_, hW2, F1.trans (F2.mono ?_), hI.step hs⟩
      · intro l hl
        by_cases c : l = k
        · subst c; rw [Function.update_self]; exact ht2
        · rw [Function.update_of_ne c, F2]
          · exact ht1 l hl
          · rintro ((h | h) | h)
            · exact dt l hl h
            · have h := Set.mem_singleton_iff.mp h
              simp only [View.at', zero_mul, add_zero] at h
              omega
            · exact dtW l hl h
      · rintro p ((h | h) | h)
        · exact Or.inl (Or.inl h)
        · exact Or.inl (Or.inr ⟨k, hk, h⟩)
        · exact Or.inr h
  · rintro ⟨k, m1⟩ h
    exact Runs.pure h

end Armas
