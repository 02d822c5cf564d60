import Verif.Bired
import Verif.BiredSpec
import Verif.TrdLemmas
import Verif.QrMultLemmas

/-!
# Lemmas about the reduction to bidiagonal form
-/

namespace Armas

open Finset

/-- `houseVec` for a row or a column. -/
theorem houseVec_vec {safmin : ℝ} (nonneg : Bool) (h0 : 0 < safmin) (h1 : safmin < 1) {m : Mem ℝ} {x : View} {tau p : Nat} {g : Nat → ℝ}
    {t0 : ℝ} (hv : x.isVec) (hs : x.size = p) (hp : 0 < p) (wx : x.WF) (hx : HoldsV m x g) (ht : m tau = some t0) (dt : tau ∉ x.foot) :
    Runs (houseVec safmin m x tau nonneg) (fun m' => ∃ u t b, m' tau = some t ∧ HoldsV m' x (fun l => if l = 0 then b else u l) ∧
      Frame (x.foot ∪ {tau}) m m' ∧ IsHouseVec p g u t b) := by
  by_cases hr : x.rows = 1
  · have e0 : x.at' 0 0 = x.vat 0 := by simp [View.at', View.vat]
    have hc : x.cols = p := by rw [← hs, View.size, hr, Nat.one_mul]
    have a0 : x.at' 0 0 ∈ x.foot := View.at_mem_foot (by omega) (by omega)
    have ne : x.at' 0 0 ≠ tau := fun e => dt (e ▸ a0)
    unfold houseVec
    rw [if_neg (by omega), if_pos hr, hs]
    have hH := (holdsV_iff hv).mp hx
    have es : (x.sub 0 1 1 (p - 1)).size = p - 1 := by simp [View.size]
    have ss : (x.sub 0 1 1 (p - 1)).foot ⊆ x.foot := View.sub_foot (by omega) (by omega)
    have hX : HoldsV m (x.sub 0 1 1 (p - 1)) (fun l => g (1 + l)) := ((hH.part (by omega) (by omega)).toV_row).congr fun l _ => by simp
    refine (householder_spec false nonneg h0 h1 (Or.inl rfl) (wx.sub (by omega) (by omega)) hX (hH 0 0 (by omega) (by omega)) ht
      (by rw [View.mem_sub_foot wx (by omega) (by omega) (by omega) (by omega)]; omega) (fun h => dt (ss h)) ne).mono ?_
    rintro m' ⟨v, t, b, hv', hb, htt, F, hcase⟩
    rw [es] at hcase
    have hsum : ∀ c : Nat → ℝ, ∑ l ∈ range p, (if l = 0 then 1 else v (l - 1)) * c l = c 0 + ∑ l ∈ range (p - 1), v l * c (1 + l) := by
      intro c
      obtain ⟨q, rfl⟩ : ∃ q, p = q + 1 := ⟨p - 1, by omega⟩
      rw [sum_range_succ', add_comm]
      simp [add_comm]
    refine ⟨fun l => if l = 0 then 1 else v (l - 1), t, b, htt, ?_, F.mono ?_, rfl, ?_, ?_, fun h => ?_⟩
    · refine (holdsV_iff hv).mpr fun i j hi hj => ?_
      obtain rfl : i = 0 := by omega
      beta_reduce
      rw [Nat.zero_add]
      by_cases c : j = 0
      · subst c; rw [if_pos rfl]; exact hb
      · rw [if_neg c, if_neg c]
        have := (holdsV_iff (Or.inl rfl)).mp hv' 0 (j - 1) Nat.one_pos (by rw [View.sub_cols]; omega)
        rw [View.at_sub, show 1 + (j - 1) = j by omega, Nat.zero_add] at this
        beta_reduce at this
        rw [Nat.zero_add] at this
        exact this
    · rintro q (h | h | h)
      · exact Or.inl (ss h)
      · rw [h]; exact Or.inl a0
      · exact Or.inr h
    · rcases hcase with ⟨-, h, -⟩ | ⟨-, hI⟩
      · exact Or.inl h
      · right
        rw [← hI.norm]
        congr 1
        have := hsum fun l => if l = 0 then 1 else v (l - 1)
        simp only [pow_two]
        rw [this, if_pos rfl]
        congr 1
        refine sum_congr rfl fun l _ => ?_
        rw [if_neg (by omega), Nat.add_sub_cancel_left]
    · intro i hi
      beta_reduce
      rw [hsum g]
      rcases hcase with ⟨hS, rfl, rfl, -⟩ | ⟨-, hI⟩
      · by_cases c : i = 0
        · subst c; simp
        · rw [if_neg c, if_neg c]
          have := (sum_eq_zero_iff_of_nonneg (fun l _ => sq_nonneg (g (1 + l)))).mp hS (i - 1) (mem_range.mpr (by omega))
          rw [show 1 + (i - 1) = i by omega, pow_eq_zero_iff two_ne_zero] at this
          rw [this]; ring
      · have hf := hI.first
        simp only [hhSigma] at hf
        by_cases c : i = 0
        · rw [if_pos c, if_pos c, c]
          simp at hf
          linear_combination -hf
        · rw [if_neg c, if_neg c]
          have := hI.rest (i - 1) (by omega)
          rw [show 1 + (i - 1) = i by omega] at this
          simp only [hhSigma] at this
          linear_combination -v (i - 1) * hf - this
    · rcases hcase with ⟨-, h', -⟩ | ⟨h', -⟩
      · exact h'
      · rw [h, Nat.sub_self] at h'
        simp at h'
  · have hc : x.cols = 1 := hv.resolve_left hr
    have hr' : x.rows = p := by rw [← hs, View.size, hc, Nat.mul_one]
    refine (houseVec_spec nonneg h0 h1 hc hr' hp wx ((holdsV_iff hv).mp hx |>.congr fun i j _ hj => by
      obtain rfl : j = 0 := by omega
      rfl) ht dt).mono ?_
    rintro m' ⟨u, t, b, k1, k2, k3, k4, k5⟩
    refine ⟨u, t, b, k1, (holdsV_iff hv).mpr fun i j hi hj => ?_, k4, k5⟩
    obtain rfl : j = 0 := by omega
    beta_reduce
    rw [Nat.add_zero]
    by_cases c : i = 0
    · subst c; rw [if_pos rfl]; exact k2
    · rw [if_neg c]; exact k3 i (by omega) (by omega)

theorem HoldsV.set0 {m : Mem ℝ} {x : View} {g : Nat → ℝ} (hv : x.isVec) (wx : x.WF) (hp : 0 < x.size) (h : HoldsV m x g) (b : ℝ) :
    HoldsV (m.set (x.at' 0 0) b) x (fun l => if l = 0 then b else g l) := by
  have e0 : x.at' 0 0 = x.vat 0 := by simp [View.at', View.vat]
  intro k hk
  beta_reduce
  by_cases c : k = 0
  · subst c; rw [e0, Mem.set_same, if_pos rfl]
  · rw [if_neg c, Mem.set_ne _ _ fun e => c (View.vat_inj hv wx hk hp (by rw [← e0]; exact e)), h k hk]

/-- `A22ᵀ u + g`. -/
def bdY (p : Nat) (F : Nat → Nat → ℝ) (v r : Nat → ℝ) (j : Nat) : ℝ := r j + ∑ l ∈ range p, F l j * v l

/-- `A22 w - s (y . w) u`. -/
def bdZ (p q : Nat) (F : Nat → Nat → ℝ) (v r w : Nat → ℝ) (s : ℝ) (i : Nat) : ℝ :=
  ∑ j ∈ range q, F i j * w j - s * (∑ j ∈ range q, bdY p F v r j * w j) * v i

/-! ### The matrix or its transpose -/

/-- Element `i`, `j` of the matrix, or of its transpose. -/
def tat (tr : Bool) (A : View) (i j : Nat) : Nat := if tr then A.at' j i else A.at' i j

/-- `A` has `M` rows and `N` columns, for `tr` the other way round. -/
def TDim (tr : Bool) (A : View) (M N : Nat) : Prop := A.rows = (if tr then N else M) ∧ A.cols = (if tr then M else N)

theorem holdsR_tat {tr : Bool} {m : Mem ℝ} {A : View} {M N : Nat} {f : Nat → Nat → ℝ} (d : TDim tr A M N) :
    HoldsR tr m A f ↔ ∀ i j, i < M → j < N → m (tat tr A i j) = some (f i j) := by
  obtain ⟨hr, hc⟩ := d
  cases tr <;> simp only [Bool.false_eq_true, if_false, if_true] at hr hc
  · constructor
    · intro h i j hi hj
      have := h i j (by omega) (by omega)
      simpa [tat] using this
    · intro h i j hi hj
      have := h i j (by omega) (by omega)
      simpa [tat] using this
  · constructor
    · intro h i j hi hj
      have := h j i (by omega) (by omega)
      simpa [tat] using this
    · intro h i j hi hj
      have := h j i (by omega) (by omega)
      simpa [tat] using this

theorem tat_foot {tr : Bool} {A : View} {M N : Nat} (d : TDim tr A M N) {i j : Nat} (hi : i < M) (hj : j < N) : tat tr A i j ∈ A.foot := by
  obtain ⟨hr, hc⟩ := d
  cases tr <;> simp only [Bool.false_eq_true, if_false, if_true] at hr hc
  · exact View.at_mem_foot (by omega) (by omega)
  · exact View.at_mem_foot (by omega) (by omega)

theorem tat_inj {tr : Bool} {A : View} {M N : Nat} (d : TDim tr A M N) (wA : A.WF) {i j i' j' : Nat} (hi : i < M) (hj : j < N) (hi' : i' < M)
    (hj' : j' < N) (e : tat tr A i j = tat tr A i' j') : i = i' ∧ j = j' := by
  obtain ⟨hr, hc⟩ := d
  cases tr <;> simp only [Bool.false_eq_true, if_false, if_true] at hr hc
  · exact View.at_inj wA (by omega) (by omega) (by omega) (by omega) e
  · exact (View.at_inj wA (by omega) (by omega) (by omega) (by omega) e).symm

theorem tat_tsub (tr : Bool) (A : View) (r c nr nc i j : Nat) : tat tr (tsub tr A r c nr nc) i j = tat tr A (r + i) (c + j) := by
  cases tr
  · exact View.at_sub ..
  · exact View.at_sub ..

theorem tsub_dim (tr : Bool) (A : View) (r c nr nc : Nat) : TDim tr (tsub tr A r c nr nc) nr nc := by
  cases tr <;> exact ⟨rfl, rfl⟩

theorem mem_tsub {tr : Bool} {A : View} {M N : Nat} (d : TDim tr A M N) (wA : A.WF) {r c nr nc i j : Nat} (h : r + nr ≤ M) (h' : c + nc ≤ N)
    (hi : i < M) (hj : j < N) : tat tr A i j ∈ (tsub tr A r c nr nc).foot ↔ (r ≤ i ∧ i < r + nr) ∧ c ≤ j ∧ j < c + nc := by
  obtain ⟨hr, hc⟩ := d
  cases tr <;> simp only [Bool.false_eq_true, if_false, if_true] at hr hc
  · show A.at' i j ∈ (A.sub r c nr nc).foot ↔ _
    rw [View.mem_sub_foot wA (by omega) (by omega) (by omega) (by omega)]
    omega
  · show A.at' j i ∈ (A.sub c r nc nr).foot ↔ _
    rw [View.mem_sub_foot wA (by omega) (by omega) (by omega) (by omega)]
    omega

theorem tsub_foot {tr : Bool} {A : View} {M N : Nat} (d : TDim tr A M N) {r c nr nc : Nat} (h : r + nr ≤ M) (h' : c + nc ≤ N) :
    (tsub tr A r c nr nc).foot ⊆ A.foot := by
  obtain ⟨hr, hc⟩ := d
  cases tr <;> simp only [Bool.false_eq_true, if_false, if_true] at hr hc
  · exact View.sub_foot (by omega) (by omega)
  · exact View.sub_foot (by omega) (by omega)

theorem tsub_wf {tr : Bool} {A : View} {M N : Nat} (d : TDim tr A M N) (wA : A.WF) {r c nr nc : Nat} (h : r + nr ≤ M) (h' : c + nc ≤ N) :
    (tsub tr A r c nr nc).WF := by
  obtain ⟨hr, hc⟩ := d
  cases tr <;> simp only [Bool.false_eq_true, if_false, if_true] at hr hc
  · exact wA.sub (by omega) (by omega)
  · exact wA.sub (by omega) (by omega)

theorem tsub_disj {tr : Bool} {A : View} {M N : Nat} (d : TDim tr A M N) (wA : A.WF) {r c nr nc r' c' nr' nc' : Nat} (h : r + nr ≤ M) (h' : c + nc ≤ N)
    (k : r' + nr' ≤ M) (k' : c' + nc' ≤ N) (e : r + nr ≤ r' ∨ r' + nr' ≤ r ∨ c + nc ≤ c' ∨ c' + nc' ≤ c) :
    Disjoint (tsub tr A r c nr nc).foot (tsub tr A r' c' nr' nc').foot := by
  obtain ⟨hr, hc⟩ := d
  cases tr <;> simp only [Bool.false_eq_true, if_false, if_true] at hr hc
  · exact View.sub_disj wA (by omega) (by omega) (by omega) (by omega) (by omega)
  · exact View.sub_disj wA (by omega) (by omega) (by omega) (by omega) (by omega)

theorem tcol_vec (tr : Bool) (A : View) (r c n : Nat) : (tsub tr A r c n 1).isVec ∧ (tsub tr A r c n 1).size = n := by
  cases tr
  · exact ⟨Or.inr rfl, by simp [tsub, View.size]⟩
  · exact ⟨Or.inl rfl, by simp [tsub, View.size]⟩

theorem trow_vec (tr : Bool) (A : View) (r c n : Nat) : (tsub tr A r c 1 n).isVec ∧ (tsub tr A r c 1 n).size = n := by
  cases tr
  · exact ⟨Or.inl rfl, by simp [tsub, View.size]⟩
  · exact ⟨Or.inr rfl, by simp [tsub, View.size]⟩

theorem tcol_holds {tr : Bool} {m : Mem ℝ} {A : View} {r c n : Nat} {g : Nat → ℝ} :
    HoldsV m (tsub tr A r c n 1) g ↔ ∀ l, l < n → m (tat tr A (r + l) c) = some (g l) := by
  rw [holdsV_iff (tcol_vec tr A r c n).1]
  have := holdsR_tat (m := m) (f := fun i _ => g i) (tsub_dim tr A r c n 1)
  have e : Holds m (tsub tr A r c n 1) (fun i j => g (i + j)) ↔ HoldsR tr m (tsub tr A r c n 1) (fun i _ => g i) := by
    obtain ⟨hr, hc⟩ := tsub_dim tr A r c n 1
    cases tr <;> simp only [Bool.false_eq_true, if_false, if_true] at hr hc
    · constructor <;> intro h <;> refine Holds.congr h fun i j hi hj => ?_
      all_goals (obtain rfl : j = 0 := by omega); rfl
    · constructor <;> intro h <;> refine Holds.congr h fun i j hi hj => ?_
      all_goals (obtain rfl : i = 0 := by omega); simp
  rw [e, this]
  constructor
  · intro h l hl
    have := h l 0 hl (by omega)
    rwa [tat_tsub, Nat.add_zero] at this
  · intro h i j hi hj
    obtain rfl : j = 0 := by omega
    rw [tat_tsub, Nat.add_zero]
    exact h i hi

theorem trow_holds {tr : Bool} {m : Mem ℝ} {A : View} {r c n : Nat} {g : Nat → ℝ} :
    HoldsV m (tsub tr A r c 1 n) g ↔ ∀ l, l < n → m (tat tr A r (c + l)) = some (g l) := by
  have e1 : tsub tr A r c 1 n = tsub (!tr) A c r n 1 := by cases tr <;> rfl
  have e2 : ∀ i j, tat tr A i j = tat (!tr) A j i := fun i j => by cases tr <;> rfl
  rw [e1, tcol_holds]
  simp only [e2]

theorem bdUpdate_spec {env : Env} (hmin : 2 ≤ env.blas2min ∨ (env.naive = true ∧ env.recursive = false)) {fuel : Nat} {tr : Bool} {m : Mem ℝ}
    {u g A22 y z : View} {p q : Nat} {s t : ℝ} {v w Y Z : Nat → ℝ} {F : Nat → Nat → ℝ} (hfp : p < fuel) (hfq : q < fuel)
    (wA : A22.WF) (hr : A22.rows = if tr then q else p) (hc : A22.cols = if tr then p else q)
    (vu : u.isVec) (vg : g.isVec) (vy : y.isVec) (vz : z.isVec) (su : u.size = p) (sg : g.size = q) (sy : y.size = q) (sz : z.size = p)
    (hu : HoldsV m u v) (hg : HoldsV m g w) (hy : HoldsV m y Y) (hz : HoldsV m z Z) (hA : HoldsR tr m A22 F)
    (du : Disjoint u.foot A22.foot) (dg : Disjoint g.foot A22.foot) (dy : Disjoint y.foot A22.foot) (dz : Disjoint z.foot A22.foot) :
    Runs (bdUpdate env fuel tr m u g A22 y z s t) (fun m' => HoldsR tr m' A22 (fun i j => F i j - s * (v i * Y j) - t * (Z i * w j)) ∧
      Frame A22.foot m m') := by
  unfold bdUpdate
  cases tr
  · simp only [Bool.false_eq_true, if_false] at hr hc ⊢
    have hA' : Holds m A22 F := Holds.congr hA fun i j _ _ => by simp
    refine Runs.bind (Props.C11_mvupdate_partial hmin 1 (-s) (by omega) wA vu vy (by omega) (by omega) hA' hu hy du dy) ?_
    rintro ⟨e, m1⟩ ⟨-, k1, k2⟩
    dsimp only at k1 k2 ⊢
    refine Runs.bind (Props.C11_mvupdate_partial hmin 1 (-t) (by omega) wA vz vg (by omega) (by omega) k1 (hz.frame vz k2 dz) (hg.frame vg k2 dg) dz dg) ?_
    rintro ⟨e, m2⟩ ⟨-, k3, k4⟩
    dsimp only at k3 k4 ⊢
    refine Runs.pure ⟨?_, k2.trans k4⟩
    exact k3.congr fun i j _ _ => by simp; ring
  · simp only [if_true] at hr hc ⊢
    have hA' : Holds m A22 (fun i j => F j i) := Holds.congr hA fun i j _ _ => by simp
    refine Runs.bind (Props.C11_mvupdate_partial hmin 1 (-s) (by omega) wA vy vu (by omega) (by omega) hA' hy hu dy du) ?_
    rintro ⟨e, m1⟩ ⟨-, k1, k2⟩
    dsimp only at k1 k2 ⊢
    refine Runs.bind (Props.C11_mvupdate_partial hmin 1 (-t) (by omega) wA vg vz (by omega) (by omega) k1 (hg.frame vg k2 dg) (hz.frame vz k2 dz) dg dz) ?_
    rintro ⟨e, m2⟩ ⟨-, k3, k4⟩
    dsimp only at k3 k4 ⊢
    refine Runs.pure ⟨?_, k2.trans k4⟩
    exact k3.congr fun i j _ _ => by simp; ring

theorem bdCore_spec {safmin : ℝ} (nonneg : Bool) (h0 : 0 < safmin) (h1 : safmin < 1) (ab : ℝ → ℝ) {env : Env}
    (hmin : 2 ≤ env.blas2min ∨ (env.naive = true ∧ env.recursive = false)) {fuel : Nat} {tr : Bool} {m : Mem ℝ}
    {u g A22 y z : View} {t1 t2 p q : Nat} {s t0 : ℝ} {v r y0 z0 : Nat → ℝ} {F : Nat → Nat → ℝ} (hfp : p < fuel) (hfq : q < fuel) (hp : 0 < p) (hq : 0 < q)
    (wA : A22.WF) (hr : A22.rows = if tr then q else p) (hc : A22.cols = if tr then p else q)
    (vu : u.isVec) (vg : g.isVec) (vy : y.isVec) (vz : z.isVec) (wg : g.WF) (wy : y.WF) (wz : z.WF)
    (su : u.size = p) (sg : g.size = q) (sy : y.size = q) (sz : z.size = p)
    (hu : HoldsV m u v) (hg : HoldsV m g r) (hy : HoldsV m y y0) (hz : HoldsV m z z0) (hA : HoldsR tr m A22 F)
    (ht1 : m t1 = some s) (ht2 : m t2 = some t0)
    (dug : Disjoint u.foot g.foot) (duA : Disjoint u.foot A22.foot) (duy : Disjoint u.foot y.foot) (duz : Disjoint u.foot z.foot)
    (dgA : Disjoint g.foot A22.foot) (dgy : Disjoint g.foot y.foot) (dgz : Disjoint g.foot z.foot)
    (dAy : Disjoint A22.foot y.foot) (dAz : Disjoint A22.foot z.foot) (dyz : Disjoint y.foot z.foot)
    (n1 : t1 ∉ y.foot) (n2u : t2 ∉ u.foot) (n2g : t2 ∉ g.foot) (n2A : t2 ∉ A22.foot) (n2y : t2 ∉ y.foot) (n2z : t2 ∉ z.foot) :
    Runs (bdCore safmin nonneg ab env fuel tr u g A22 y z t1 t2 m) (fun m' => ∃ w t b, m' t2 = some t ∧
      HoldsV m' g (fun l => if l = 0 then b else w l) ∧ HoldsR tr m' A22 (fun i j => F i j - s * (v i * bdY p F v r j) - t * (bdZ p q F v r w s i * w j)) ∧
      (∃ y', HoldsV m' y y') ∧ (∃ z', HoldsV m' z z') ∧ Frame (g.foot ∪ A22.foot ∪ y.foot ∪ z.foot ∪ {t2}) m m' ∧
      IsHouseVec q (fun j => r j - s * bdY p F v r j) w t b) := by
  have hmin' : env.blas2min ≠ 1 ∨ env.naive = true := by
    rcases hmin with h | h
    · left; omega
    · exact Or.inr h.1
  have hA0 : A22.size ≠ 0 := by
    rw [View.size, hr, hc]
    cases tr <;> simp <;> omega
  unfold bdCore
  refine Runs.bind (Props.C06_axpby 0 1 vg vy wy (by omega) hg hy dgy) ?_
  rintro ⟨e, m1⟩ ⟨-, k1, F1⟩
  dsimp only at k1 F1 ⊢
  refine Runs.bind (mvmult_one (A := A22) (X := u) ab hmin' 1 rfl (by omega) vy wy vu
    (by cases tr <;> simp_all) (by cases tr <;> simp_all) k1 (Holds.frame hA F1 dAy) (hu.frame vu F1 duy) dAy duy) ?_
  rintro ⟨e, m2⟩ ⟨k2, F2⟩
  dsimp only at k2 F2 ⊢
  have F02 : Frame y.foot m m2 := F1.trans F2
  have y2 : HoldsV m2 y (bdY p F v r) := k2.congr fun j _ => by
    unfold bdY
    rw [su]
    cases tr <;> simp
  refine Runs.rd_bind (by rw [F02 _ n1]; exact ht1) ?_
  refine Runs.bind (Props.C06_axpy (-s) vy vg wg (by omega) y2 (hg.frame vg F02 dgy) dgy.symm) ?_
  rintro ⟨e, m3⟩ ⟨-, k3, F3⟩
  dsimp only at k3 F3 ⊢
  have g3 : HoldsV m3 g (fun j => r j - s * bdY p F v r j) := k3.congr fun j _ => by ring
  refine Runs.bind (houseVec_vec nonneg h0 h1 vg sg hq wg g3 (by rw [F3 _ n2g, F02 _ n2y]; exact ht2) n2g) ?_
  rintro m4 ⟨w, t, b, htt, g4, F4, H⟩
  have e0 : g.at' 0 0 = g.vat 0 := by simp [View.at', View.vat]
  have a0 : g.at' 0 0 ∈ g.foot := by rw [e0]; exact View.vat_mem_foot vg (by omega)
  refine Runs.rd_bind htt ?_
  have b4 : m4 (g.at' 0 0) = some b := by rw [e0, g4 0 (by omega)]; simp
  refine Runs.rd_bind b4 ?_
  refine Runs.wr_bind b4 ?_
  set m5 := m4.set (g.at' 0 0) 1 with hm5
  have F5 : Frame g.foot m4 m5 := Frame.set a0 _
  have g5 : HoldsV m5 g w := (g4.set0 vg wg (by omega) 1).congr fun l _ => by
    by_cases c : l = 0
    · subst c; rw [if_pos rfl, H.one]
    · rw [if_neg c, if_neg c]
  have F25 : Frame (g.foot ∪ {t2}) m2 m5 := (F3.mono Set.subset_union_left).trans (F4.trans (F5.mono Set.subset_union_left))
  have dy2 : Disjoint y.foot (g.foot ∪ {t2}) := Set.disjoint_union_right.mpr ⟨dgy.symm, Set.disjoint_singleton_right.mpr n2y⟩
  have du2 : Disjoint u.foot (g.foot ∪ {t2}) := Set.disjoint_union_right.mpr ⟨dug, Set.disjoint_singleton_right.mpr n2u⟩
  have dA2 : Disjoint A22.foot (g.foot ∪ {t2}) := Set.disjoint_union_right.mpr ⟨dgA.symm, Set.disjoint_singleton_right.mpr n2A⟩
  have dz2 : Disjoint z.foot (g.foot ∪ {t2}) := Set.disjoint_union_right.mpr ⟨dgz.symm, Set.disjoint_singleton_right.mpr n2z⟩
  have y5 := y2.frame vy F25 dy2
  have u5 := (hu.frame vu F02 duy).frame vu F25 du2
  have z5 := (hz.frame vz F02 dyz.symm).frame vz F25 dz2
  have A5 : HoldsR tr m5 A22 F := Holds.frame (Holds.frame hA F02 dAy) F25 dA2
  rw [Props.C07_dot env.blas1min env.naive vy vg (by omega) y5 g5 fuel (by omega), Res.ok_bind, sy]
  refine Runs.bind (Props.C06_axpby 0 _ vu vz wz (by omega) u5 z5 duz) ?_
  rintro ⟨e, m6⟩ ⟨-, k6, F6⟩
  dsimp only at k6 F6 ⊢
  refine Runs.bind (Props.C10_mvmult_partial ab hmin' (-1) 1 (fl := { transA := tr }) rfl (A := A22) (X := g) hA0 (by omega) vz wz vg
    (by cases tr <;> simp_all) (by cases tr <;> simp_all) k6 (Holds.frame A5 F6 dAz) (g5.frame vg F6 dgz) dAz dgz) ?_
  rintro ⟨e, m7⟩ ⟨-, k7, F7⟩
  dsimp only at k7 F7 ⊢
  have F57 : Frame z.foot m5 m7 := F6.trans F7
  have z7 : HoldsV m7 z (bdZ p q F v r w s) := k7.congr fun i _ => by
    unfold bdZ
    rw [sg]
    cases tr <;> simp <;> ring
  refine Runs.bind (bdUpdate_spec (s := s) (t := t) hmin hfp hfq wA hr hc vu vg vy vz su sg sy sz (u5.frame vu F57 duz) (g5.frame vg F57 dgz) (y5.frame vy F57 dyz) z7
    (Holds.frame A5 F57 dAz) duA dgA dAy.symm dAz.symm) ?_
  rintro m8 ⟨A8, F8⟩
  have F58 : Frame (A22.foot ∪ z.foot) m5 m8 := (F57.mono Set.subset_union_right).trans (F8.mono Set.subset_union_left)
  have g8 := g5.frame vg F58 (Set.disjoint_union_right.mpr ⟨dgA, dgz⟩)
  have b8 : m8 (g.at' 0 0) = some (w 0) := by rw [e0]; exact g8 0 (by omega)
  refine Runs.wr b8 ?_
  have F9 : Frame g.foot m8 (m8.set (g.at' 0 0) b) := Frame.set a0 _
  refine ⟨w, t, b, ?_, ?_, ?_, ⟨_, ((y5.frame vy F58 (Set.disjoint_union_right.mpr ⟨dAy.symm, dyz⟩)).frame vy F9 dgy.symm)⟩,
    ⟨_, (z7.frame vz F8 dAz.symm).frame vz F9 dgz.symm⟩, ?_, H⟩
  · rw [F9 _ n2g, F58 _ (by rintro (h | h); exacts [n2A h, n2z h]), F5 _ n2g, htt]
  · exact (g8.set0 vg wg (by omega) b).congr fun l _ => rfl
  · exact Holds.frame A8 F9 dgA.symm
  · refine (F02.mono ?_).trans ((F25.mono ?_).trans ((F58.mono ?_).trans (F9.mono ?_)))
    · exact fun x h => Or.inl (Or.inl (Or.inr h))
    · rintro x (h | h)
      · exact Or.inl (Or.inl (Or.inl (Or.inl h)))
      · exact Or.inr h
    · rintro x (h | h)
      · exact Or.inl (Or.inl (Or.inl (Or.inr h)))
      · exact Or.inl (Or.inr h)
    · exact fun x h => Or.inl (Or.inl (Or.inl (Or.inl h)))

end Armas
