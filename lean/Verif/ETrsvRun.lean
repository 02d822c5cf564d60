import Verif.ETrsvLemmas

/-! # Runs of the extended-precision triangular solve -/

namespace Armas
open Finset

/-- Common factor of the residual bounds. -/
def eG (p N : Nat) : ℚ := 2 * gr (uround p) (N + 18) ^ 2

theorem eG_nonneg (p N : Nat) : 0 ≤ eG p N := by unfold eG; positivity

theorem eG_ge {p N a b : Nat} (ha : a ≤ N + 18) (hb : b ≤ N + 18) :
    gr (uround p) a * gr (uround p) b ≤ gr (uround p) (N + 18) ^ 2 := by
  have hu := (uround_pos p).le
  rw [sq]
  exact mul_le_mul (gr_mono hu ha) (gr_mono hu hb) (gr_nonneg hu _) (gr_nonneg hu _)

/-- Equation `i`, whose other unknowns are `idx 0`, ..., `idx (n-1)`, holds up to second order. -/
structure ERow (p N : Nat) (T : Nat → Nat → ℚ) (alpha : ℚ) (b v d : Nat → ℚ) (n : Nat)
    (idx : Nat → Nat) (i : Nat) : Prop where
  fl : Fl p (v i)
  small : |d i| ≤ 4 * uround p * |v i|
  res : |∑ k ∈ range n, T i (idx k) * (v (idx k) + d (idx k)) + T i i * (v i + d i) - alpha * b i| ≤
    eG p N * (|alpha * b i| + ∑ k ∈ range n, |T i (idx k)| * |v (idx k)| + |T i i| * |v i|)

theorem ERow.congr {p N : Nat} {T : Nat → Nat → ℚ} {alpha : ℚ} {b v d v' d' : Nat → ℚ} {n : Nat}
    {idx : Nat → Nat} {i : Nat} (h : ERow p N T alpha b v d n idx i) (hi : v' i = v i ∧ d' i = d i)
    (hk : ∀ k, k < n → v' (idx k) = v (idx k) ∧ d' (idx k) = d (idx k)) :
    ERow p N T alpha b v' d' n idx i := by
  refine ⟨by rw [hi.1]; exact h.fl, by rw [hi.1, hi.2]; exact h.small, ?_⟩
  have e1 : ∑ k ∈ range n, T i (idx k) * (v' (idx k) + d' (idx k)) =
      ∑ k ∈ range n, T i (idx k) * (v (idx k) + d (idx k)) :=
    sum_congr rfl (fun k hk' => by rw [(hk k (mem_range.1 hk')).1, (hk k (mem_range.1 hk')).2])
  have e2 : ∑ k ∈ range n, |T i (idx k)| * |v' (idx k)| = ∑ k ∈ range n, |T i (idx k)| * |v (idx k)| :=
    sum_congr rfl (fun k hk' => by rw [(hk k (mem_range.1 hk')).1])
  rw [hi.1, hi.2, e1, e2]
  exact h.res

/-- Operands of the solve. -/
structure EArgs (m : Mem ℚ) (X dX A : View) (a : Nat → Nat → ℚ) (N : Nat) : Prop where
  rows : A.rows = N
  cols : A.cols = N
  hA : Holds m A a
  vX : X.isVec
  wX : X.WF
  nX : X.size = N
  vD : dX.isVec
  wD : dX.WF
  nD : dX.size = N
  dis : Disjoint X.foot dX.foot
  disX : Disjoint A.foot X.foot
  disD : Disjoint A.foot dX.foot

/-- Memory during the solve. -/
structure ESt (m0 : Mem ℚ) (X dX : View) (v d : Nat → ℚ) (m : Mem ℚ) : Prop where
  hX : HoldsV m X v
  hD : HoldsV m dX d
  frame : Frame (X.foot ∪ dX.foot) m0 m

section
variable {p : Nat} {rn : ℚ → ℚ} {tp td : ℚ → ℚ → ℚ × ℚ} {m0 : Mem ℚ} {X dX A : View}
  {a : Nat → Nat → ℚ} {N : Nat}

theorem EArgs.cell (H : EArgs m0 X dX A a N) {v d : Nat → ℚ} {m : Mem ℚ} (h : ESt m0 X dX v d m)
    {i j : Nat} (hi : i < N) (hj : j < N) : m (A.at' i j) = some (a i j) := by
  have hm : A.at' i j ∈ A.foot := View.at_mem_foot (by rw [H.rows]; exact hi) (by rw [H.cols]; exact hj)
  rw [h.frame]
  · exact H.hA i j (by rw [H.rows]; exact hi) (by rw [H.cols]; exact hj)
  · rintro (h' | h')
    · exact Set.disjoint_left.mp H.disX hm h'
    · exact Set.disjoint_left.mp H.disD hm h'

theorem ESt.put (H : EArgs m0 X dX A a N) {v d : Nat → ℚ} {m : Mem ℚ} (h : ESt m0 X dX v d m) {i : Nat}
    (hi : i < N) (s c : ℚ) :
    ESt m0 X dX (fun l => if l = i then s else v l) (fun l => if l = i then c else d l)
      ((m.set (X.vat i) s).set (dX.vat i) c) := by
  have h1 : X.vat i ∈ X.foot := View.vat_mem_foot H.vX (by rw [H.nX]; exact hi)
  have h2 : dX.vat i ∈ dX.foot := View.vat_mem_foot H.vD (by rw [H.nD]; exact hi)
  refine ⟨?_, ?_, ?_⟩
  · exact (h.hX.write H.vX H.wX (by rw [H.nX]; exact hi) s).frame H.vX (Frame.set h2 c) H.dis
  · exact (h.hD.frame H.vD (Frame.set h1 s) H.dis.symm).write H.vD H.wD (by rw [H.nD]; exact hi) c
  · exact (h.frame.trans (Frame.set (Or.inl h1) s)).trans (Frame.set (Or.inr h2) c)

/-- The division and the stores. -/
theorem etrsvStore_spec (hp : 6 ≤ p) (R : Nearest p rn) (D : DivOk p rn td) (H : EArgs m0 X dX A a N)
    {v d b : Nat → ℚ} {m : Mem ℚ} (h : ESt m0 X dX v d m) {i : Nat} (hi : i < N) {unit : Bool}
    {T : Nat → Nat → ℚ} {alpha : ℚ} {n : Nat} {idx : Nat → Nat} {su : ℚ × ℚ}
    (hT : T i i = if unit then 1 else a i i) (hne : unit = false → a i i ≠ 0)
    (fa : unit = false → Fl p (a i i)) (hidx : ∀ k, k < n → idx k ≠ i)
    (f1 : Fl p su.1) (f3 : |su.2| ≤ 4 * uround p * |su.1|)
    (hr : |su.1 + su.2 - (alpha * b i - ∑ k ∈ range n, T i (idx k) * (v (idx k) + d (idx k)))| ≤
      eG p N * (|alpha * b i| + ∑ k ∈ range n, |T i (idx k)| * |v (idx k)|)) :
    Runs (etrsvStore rn td X dX A unit i su m) (fun m' => ∃ s c,
      ESt m0 X dX (fun l => if l = i then s else v l) (fun l => if l = i then c else d l) m' ∧
      ERow p N T alpha b (fun l => if l = i then s else v l) (fun l => if l = i then c else d l) n idx i) := by
  have hu := (uround_pos p).le
  unfold etrsvStore
  have key : Runs (if unit then pure su else do
      let ak ← rd m (A.at' i i)
      pure (etrsvDiv rn td su.1 su.2 ak)) (fun su' => Fl p su'.1 ∧ |su'.2| ≤ 4 * uround p * |su'.1| ∧
        |∑ k ∈ range n, T i (idx k) * (v (idx k) + d (idx k)) + T i i * (su'.1 + su'.2) - alpha * b i| ≤
        eG p N * (|alpha * b i| + ∑ k ∈ range n, |T i (idx k)| * |v (idx k)| + |T i i| * |su'.1|)) := by
    cases unit with
    | true =>
      rw [if_pos rfl]
      refine Runs.pure ⟨f1, f3, ?_⟩
      rw [hT, if_pos rfl]
      have : 0 ≤ eG p N * (|(1 : ℚ)| * |su.1|) := mul_nonneg (eG_nonneg p N) (by positivity)
      refine le_trans (le_of_eq ?_) (le_trans hr (by linarith))
      congr 1; ring
    | false =>
      rw [if_neg (by decide)]
      refine Runs.rd_bind (H.cell h hi hi) (Runs.pure ?_)
      obtain ⟨g1, _, g3, g4⟩ := etrsvDiv_err hp R D f1 (fa rfl) (hne rfl) f3
      refine ⟨g1, g3, ?_⟩
      rw [hT, if_neg (by decide)]
      set z := etrsvDiv rn td su.1 su.2 (a i i)
      have e5 := eG_ge (p := p) (N := N) (a := 5) (b := 10) (by omega) (by omega)
      have e6 : gr (uround p) 5 * gr (uround p) 10 ≤ eG p N := by
        unfold eG; have := sq_nonneg (gr (uround p) (N + 18)); linarith
      have g5 := le_trans g4 (mul_le_mul_of_nonneg_right e6 (by positivity))
      set Sg := ∑ k ∈ range n, T i (idx k) * (v (idx k) + d (idx k))
      calc |Sg + a i i * (z.1 + z.2) - alpha * b i|
          = |(su.1 + su.2 - (alpha * b i - Sg)) + (a i i * (z.1 + z.2) - (su.1 + su.2))| := by ring_nf
        _ ≤ _ + _ := abs_add_le _ _
        _ ≤ _ := by linarith
  refine Runs.bind key ?_
  rintro ⟨s, c⟩ ⟨k1, k2, k3⟩
  refine Runs.wr_bind (h.hX i (by rw [H.nX]; exact hi)) ?_
  have h2 := h.hD.frame H.vD (Frame.set (View.vat_mem_foot H.vX (by rw [H.nX]; exact hi)) s) H.dis.symm
  refine Runs.wr (h2 i (by rw [H.nD]; exact hi)) ⟨s, c, h.put H hi s c, ?_⟩
  refine ⟨by simpa using k1, by simpa using k2, ?_⟩
  have e1 : ∑ k ∈ range n, T i (idx k) * ((if idx k = i then s else v (idx k)) +
      (if idx k = i then c else d (idx k))) = ∑ k ∈ range n, T i (idx k) * (v (idx k) + d (idx k)) :=
    sum_congr rfl (fun k hk => by
      rw [if_neg (hidx k (mem_range.1 hk)), if_neg (hidx k (mem_range.1 hk))])
  have e2 : ∑ k ∈ range n, |T i (idx k)| * |if idx k = i then s else v (idx k)| =
      ∑ k ∈ range n, |T i (idx k)| * |v (idx k)| :=
    sum_congr rfl (fun k hk => by rw [if_neg (hidx k (mem_range.1 hk))])
  beta_reduce
  rw [if_pos rfl, if_pos rfl, e1, e2]
  exact k3

/-- The unknown handled before the loop. -/
theorem etrsvFirst_spec (hp : 6 ≤ p) (R : Nearest p rn) (P : ProdOk p rn tp) (D : DivOk p rn td)
    (H : EArgs m0 X dX A a N)
    {v d : Nat → ℚ} {m : Mem ℚ} (h : ESt m0 X dX v d m) {i : Nat} (hi : i < N) {unit : Bool}
    {T : Nat → Nat → ℚ} {alpha : ℚ} {idx : Nat → Nat}
    (hT : T i i = if unit then 1 else a i i) (hne : unit = false → a i i ≠ 0)
    (fa : unit = false → Fl p (a i i)) (hd : d i = 0) (fb : Fl p (v i)) (fal : Fl p alpha) :
    Runs (etrsvFirst rn tp td X dX alpha A unit i m) (fun m' => ∃ s c,
      ESt m0 X dX (fun l => if l = i then s else v l) (fun l => if l = i then c else d l) m' ∧
      ERow p N T alpha v (fun l => if l = i then s else v l) (fun l => if l = i then c else d l) 0 idx i) := by
  have hu := (uround_pos p).le
  have h64 := uround_64 hp
  have hp0 : 0 < p := by omega
  unfold etrsvFirst
  refine Runs.rd_bind (h.hX i (by rw [H.nX]; exact hi)) ?_
  obtain ⟨t1, t2, t3⟩ := prod_err hp0 R P fb fal
  have t4 := (P _ _ fb fal).1
  dsimp only
  refine Runs.rd_bind (h.hD i (by rw [H.nD]; exact hi)) ?_
  rw [hd, mul_zero, R.exact (fl_zero p), add_zero]
  have r1 := R.rel hp0 (tp (v i) alpha).2
  have g1 : (1 - uround p) * |v i * alpha| ≤ |(tp (v i) alpha).1| := by rw [t4]; exact near_ge hp R
  set q := (tp (v i) alpha).2
  have n1 := abs_nonneg (v i * alpha)
  have hq : |rn q| ≤ (1 + uround p) * |q| := by
    have : |rn q| ≤ |rn q - q| + |q| := by
      calc |rn q| = |(rn q - q) + q| := by ring_nf
        _ ≤ _ := abs_add_le _ _
    linarith
  refine etrsvStore_spec hp R D H h hi (b := v) (n := 0) (idx := idx) hT hne fa (fun k hk => by omega)
    t1 ?_ ?_
  · change |rn q| ≤ _
    have a1 : (1 + uround p) * |q| ≤ 2 * |q| := mul_le_mul_of_nonneg_right (by linarith) (abs_nonneg _)
    have a2 : (63 / 64 : ℚ) * |v i * alpha| ≤ (1 - uround p) * |v i * alpha| :=
      mul_le_mul_of_nonneg_right (by linarith) n1
    have a3 : 1 / 2 * |v i * alpha| ≤ |(tp (v i) alpha).1| := by linarith
    have a4 := mul_le_mul_of_nonneg_left a3 hu
    linarith
  · rw [sum_range_zero, sum_range_zero, sub_zero, add_zero]
    change |(tp (v i) alpha).1 + rn q - alpha * v i| ≤ _
    rw [mul_comm alpha, ← t2, show (tp (v i) alpha).1 + rn q - ((tp (v i) alpha).1 + q) = rn q - q by ring,
      t2]
    have e5 := eG_ge (p := p) (N := N) (a := 1) (b := 1) (by omega) (by omega)
    rw [gr_one] at e5
    have e6 : uround p * uround p ≤ eG p N := by
      unfold eG; have := sq_nonneg (gr (uround p) (N + 18)); linarith
    have := mul_le_mul_of_nonneg_right e6 n1
    have := mul_le_mul_of_nonneg_left t3 hu
    linarith

/-- One loop body; `lu` selects the variant of `trsv_ext_unb_lu`. -/
theorem etrsvStep_spec (hp : 6 ≤ p) (R : Nearest p rn) (P : ProdOk p rn tp) (D : DivOk p rn td)
    (H : EArgs m0 X dX A a N)
    {v d b : Nat → ℚ} {m : Mem ℚ} (h : ESt m0 X dX v d m) {i : Nat} (hi : i < N) {unit : Bool}
    {T : Nat → Nat → ℚ} {alpha : ℚ} {n : Nat} {idx : Nat → Nat} {x0 dx0 a0 : View} (hnN : n ≤ N)
    (hT : T i i = if unit then 1 else a i i) (hne : unit = false → a i i ≠ 0)
    (fa : unit = false → Fl p (a i i)) (hidx : ∀ k, k < n → idx k ≠ i)
    (hvb : v i = b i) (fb : Fl p (b i)) (fal : Fl p alpha) (hn : x0.size = n)
    (hx0 : ∀ k, k < n → m (x0.vat k) = some (v (idx k)))
    (hd0 : ∀ k, k < n → m (dx0.vat k) = some (d (idx k)))
    (ha0 : ∀ k, k < n → m (a0.vat k) = some (T i (idx k)))
    (fx : ∀ k, k < n → Fl p (v (idx k))) (fT : ∀ k, k < n → Fl p (T i (idx k)))
    (hdx : ∀ k, k < n → |d (idx k)| ≤ 4 * uround p * |v (idx k)|) (lu : Bool) :
    Runs ((if lu then etrsvStepLu else etrsvStep) rn tp td X dX alpha A unit x0 dx0 a0 i m) (fun m' => ∃ s c,
      ESt m0 X dX (fun l => if l = i then s else v l) (fun l => if l = i then c else d l) m' ∧
      ERow p N T alpha b (fun l => if l = i then s else v l) (fun l => if l = i then c else d l) n idx i) := by
  have hu := (uround_pos p).le
  have hA := adotDx_spec hp R P (b := b i) hn hx0 hd0 ha0 fx fT hdx fb fal
  have hB : 0 ≤ |alpha * b i| + ∑ k ∈ range n, |T i (idx k)| * |v (idx k)| :=
    add_nonneg (abs_nonneg _) (sum_nonneg fun _ _ => by positivity)
  set B := |alpha * b i| + ∑ k ∈ range n, |T i (idx k)| * |v (idx k)|
  have e1 := mul_le_mul_of_nonneg_right
    (eG_ge (p := p) (N := N) (a := n + 8) (b := n + 7) (by omega) (by omega)) hB
  have e2 := mul_le_mul_of_nonneg_right
    (eG_ge (p := p) (N := N) (a := n + 18) (b := n + 7) (by omega) (by omega)) hB
  have e0 : eG p N * B = 2 * (gr (uround p) (N + 18) ^ 2 * B) := by unfold eG; ring
  have e3 : 0 ≤ gr (uround p) (N + 18) ^ 2 * B := by positivity
  have hX : m (X.vat i) = some (b i) := by rw [← hvb]; exact h.hX i (by rw [H.nX]; exact hi)
  cases lu with
  | false =>
    rw [if_neg (by decide)]
    unfold etrsvStep
    refine Runs.rd_bind hX (Runs.bind hA ?_)
    rintro su ⟨f1, f2, f3, f4, _, _⟩
    exact etrsvStore_spec hp R D H h hi hT hne fa hidx f1 f3 (by rw [e0]; linarith)
  | true =>
    rw [if_pos rfl]
    unfold etrsvStepLu
    refine Runs.rd_bind hX (Runs.bind hA ?_)
    rintro su ⟨f1, f2, f3, f4, f5, f6⟩
    cases unit with
    | false =>
      rw [if_neg (by decide)]
      exact etrsvStore_spec hp R D H h hi hT hne fa hidx f1 f3 (by rw [e0]; linarith)
    | true =>
      rw [if_pos rfl]
      refine etrsvStore_spec hp R D H h hi hT hne fa hidx (R.fl _) f6 ?_
      rw [e0]
      change |rn (su.1 + su.2) + su.2 - _| ≤ _
      set W := alpha * b i - ∑ k ∈ range n, T i (idx k) * (v (idx k) + d (idx k))
      calc |rn (su.1 + su.2) + su.2 - W| = |(rn (su.1 + su.2) - su.1) + (su.1 + su.2 - W)| := by ring_nf
        _ ≤ _ + _ := abs_add_le _ _
        _ ≤ _ := by linarith

/-- Unknowns below `i` found. -/
def EFwd (p N : Nat) (m0 : Mem ℚ) (X dX : View) (T : Nat → Nat → ℚ) (alpha : ℚ) (b : Nat → ℚ)
    (i : Nat) (m : Mem ℚ) : Prop :=
  ∃ v d, ESt m0 X dX v d m ∧ (∀ k, i ≤ k → v k = b k) ∧
    ∀ k, k < i → ERow p N T alpha b v d k (fun l => l) k

/-- Unknowns from `i` on found. -/
def EBwd (p N : Nat) (m0 : Mem ℚ) (X dX : View) (T : Nat → Nat → ℚ) (alpha : ℚ) (b : Nat → ℚ)
    (i : Nat) (m : Mem ℚ) : Prop :=
  ∃ v d, ESt m0 X dX v d m ∧ (∀ k, k < i → v k = b k) ∧
    ∀ k, i ≤ k → k < N → ERow p N T alpha b v d (N - 1 - k) (fun l => k + 1 + l) k

theorem EFwd.step {T : Nat → Nat → ℚ} {alpha : ℚ} {v d b : Nat → ℚ} {i : Nat} {m' : Mem ℚ}
    (hb : ∀ k, i ≤ k → v k = b k) (hr : ∀ k, k < i → ERow p N T alpha b v d k (fun l => l) k)
    (h : ∃ s c,
      ESt m0 X dX (fun l => if l = i then s else v l) (fun l => if l = i then c else d l) m' ∧
      ERow p N T alpha b (fun l => if l = i then s else v l) (fun l => if l = i then c else d l) i
        (fun l => l) i) : EFwd p N m0 X dX T alpha b (i + 1) m' := by
  obtain ⟨s, c, h1, h2⟩ := h
  refine ⟨_, _, h1, fun k hk => by rw [if_neg (by omega)]; exact hb k (by omega), fun k hk => ?_⟩
  rcases Nat.lt_or_ge k i with hki | hki
  · refine (hr k hki).congr ⟨if_neg (by omega), if_neg (by omega)⟩ fun l hl =>
      ⟨if_neg (by omega), if_neg (by omega)⟩
  · have : k = i := by omega
    subst this; exact h2

theorem EBwd.step {T : Nat → Nat → ℚ} {alpha : ℚ} {v d b : Nat → ℚ} {i : Nat} {m' : Mem ℚ}
    (hb : ∀ k, k < i + 1 → v k = b k)
    (hr : ∀ k, i + 1 ≤ k → k < N → ERow p N T alpha b v d (N - 1 - k) (fun l => k + 1 + l) k)
    (h : ∃ s c,
      ESt m0 X dX (fun l => if l = i then s else v l) (fun l => if l = i then c else d l) m' ∧
      ERow p N T alpha b (fun l => if l = i then s else v l) (fun l => if l = i then c else d l)
        (N - 1 - i) (fun l => i + 1 + l) i) : EBwd p N m0 X dX T alpha b i m' := by
  obtain ⟨s, c, h1, h2⟩ := h
  refine ⟨_, _, h1, fun k hk => by rw [if_neg (by omega)]; exact hb k (by omega), fun k hk hkN => ?_⟩
  rcases Nat.lt_or_ge i k with hki | hki
  · refine (hr k hki hkN).congr ⟨if_neg (by omega), if_neg (by omega)⟩ fun l hl =>
      ⟨if_neg (by omega), if_neg (by omega)⟩
  · have : k = i := by omega
    subst this; exact h2

/-- The forward loops; `a0` is the part of the matrix the loop selects. -/
theorem etrsvFwd_spec (hp : 6 ≤ p) (R : Nearest p rn) (P : ProdOk p rn tp) (D : DivOk p rn td)
    (H : EArgs m0 X dX A a N) {b d : Nat → ℚ} {unit : Bool} {T : Nat → Nat → ℚ} {alpha : ℚ}
    (hb : HoldsV m0 X b) (hd : HoldsV m0 dX d) (h0 : d 0 = 0) (hN : 0 < N)
    (hT : ∀ i, T i i = if unit then 1 else a i i) (hne : unit = false → ∀ i, i < N → a i i ≠ 0)
    (fa : unit = false → ∀ i, i < N → Fl p (a i i)) (fb : ∀ i, i < N → Fl p (b i)) (fal : Fl p alpha)
    (fT : ∀ i j, j < i → i < N → Fl p (T i j)) (a0 : Nat → View)
    (ha0 : ∀ i k, k < i → i < N → ∃ r c, r < N ∧ c < N ∧ (a0 i).vat k = A.at' r c ∧ a r c = T i k) :
    Runs (do
      let m ← etrsvFirst rn tp td X dX alpha A unit 0 m0
      let (_, m) ← forUp 1 N 1 (fun i m =>
        etrsvStep rn tp td X dX alpha A unit (X.subvec 0 i) (dX.subvec 0 i) (a0 i) i m) m
      pure m) (EFwd p N m0 X dX T alpha b N) := by
  refine Runs.bind (P := EFwd p N m0 X dX T alpha b 1) ?_ ?_
  · refine (etrsvFirst_spec hp R P D H (T := T) (idx := fun l => l) ⟨hb, hd, Frame.refl _ _⟩ hN (hT 0)
      (fun e => hne e 0 hN) (fun e => fa e 0 hN) h0 (fb 0 hN) fal).mono fun m' h => ?_
    exact EFwd.step (v := b) (d := d) (i := 0) (fun _ _ => rfl) (fun k hk => by omega) h
  · intro m1 h1
    refine Runs.bind (P := fun q => EFwd p N m0 X dX T alpha b N q.2)
      (Runs.forUp1 (EFwd p N m0 X dX T alpha b) (by omega) h1 ?_ (fun st h => h)) ?_
    · rintro i m hi1 hi ⟨v, d', hs, hvb, hr⟩
      have := etrsvStep_spec hp R P D H hs hi (b := b) (n := i) (idx := fun l => l)
        (x0 := X.subvec 0 i) (dx0 := dX.subvec 0 i) (a0 := a0 i) (T := T) (alpha := alpha) (unit := unit)
        (by omega) (hT i)
        (fun e => hne e i hi) (fun e => fa e i hi) (fun k hk => by omega) (hvb i le_rfl) (fb i hi) fal
        (View.subvec_size _ _ _)
        (fun k hk => by
          rw [View.subvec_vat H.vX 0 i hk, zero_add]; exact hs.hX k (by rw [H.nX]; omega))
        (fun k hk => by
          rw [View.subvec_vat H.vD 0 i hk, zero_add]; exact hs.hD k (by rw [H.nD]; omega))
        (fun k hk => by
          obtain ⟨r, c, hr', hc', e1, e2⟩ := ha0 i k hk hi
          rw [e1, ← e2]; exact H.cell hs hr' hc')
        (fun k hk => (hr k hk).fl) (fun k hk => fT i k hk hi) (fun k hk => (hr k hk).small) false
      rw [if_neg (by decide)] at this
      exact this.mono fun m' h => EFwd.step hvb hr h
    · rintro ⟨_, m⟩ h
      exact Runs.pure h

/-- The backward loops. -/
theorem etrsvBwd_spec (hp : 6 ≤ p) (R : Nearest p rn) (P : ProdOk p rn tp) (D : DivOk p rn td)
    (H : EArgs m0 X dX A a N) {b d : Nat → ℚ} {unit : Bool} {T : Nat → Nat → ℚ} {alpha : ℚ}
    (hb : HoldsV m0 X b) (hd : HoldsV m0 dX d) (h0 : d (N - 1) = 0) (hN : 0 < N)
    (hT : ∀ i, T i i = if unit then 1 else a i i) (hne : unit = false → ∀ i, i < N → a i i ≠ 0)
    (fa : unit = false → ∀ i, i < N → Fl p (a i i)) (fb : ∀ i, i < N → Fl p (b i)) (fal : Fl p alpha)
    (fT : ∀ i j, i < j → j < N → Fl p (T i j)) (a0 : Nat → View)
    (ha0 : ∀ i k, i + 1 + k < N →
      ∃ r c, r < N ∧ c < N ∧ (a0 i).vat k = A.at' r c ∧ a r c = T i (i + 1 + k)) (lu : Bool) :
    Runs (do
      let m ← etrsvFirst rn tp td X dX alpha A unit (N - 1) m0
      forDown (N - 1) (fun i m =>
        (if lu then etrsvStepLu else etrsvStep) rn tp td X dX alpha A unit (X.subvec (i + 1) (N - 1 - i))
          (dX.subvec (i + 1) (N - 1 - i)) (a0 i) i m) m) (EBwd p N m0 X dX T alpha b 0) := by
  refine Runs.bind (P := EBwd p N m0 X dX T alpha b (N - 1)) ?_ ?_
  · refine (etrsvFirst_spec hp R P D H (T := T) (idx := fun l => N - 1 + 1 + l) ⟨hb, hd, Frame.refl _ _⟩
      (show N - 1 < N by omega) (hT _)
      (fun e => hne e _ (by omega)) (fun e => fa e _ (by omega)) h0 (fb _ (by omega)) fal).mono fun m' h => ?_
    refine EBwd.step (v := b) (d := d) (i := N - 1) (fun _ _ => rfl) (fun k hk hk' => by omega) ?_
    rw [show N - 1 - (N - 1) = 0 by omega]
    exact h
  · intro m1 h1
    refine Runs.forDown (EBwd p N m0 X dX T alpha b) h1 ?_ (fun st h => h)
    rintro i m hi ⟨v, d', hs, hvb, hr⟩
    have := etrsvStep_spec hp R P D H hs (show i < N by omega) (b := b) (n := N - 1 - i)
        (idx := fun l => i + 1 + l)
        (x0 := X.subvec (i + 1) (N - 1 - i)) (dx0 := dX.subvec (i + 1) (N - 1 - i)) (a0 := a0 i)
        (T := T) (alpha := alpha) (unit := unit)
        (by omega) (hT i)
        (fun e => hne e i (by omega)) (fun e => fa e i (by omega)) (fun k hk => by omega)
        (hvb i (by omega)) (fb i (by omega)) fal
        (View.subvec_size _ _ _)
        (fun k hk => by
          rw [View.subvec_vat H.vX _ _ hk]; exact hs.hX _ (by rw [H.nX]; omega))
        (fun k hk => by
          rw [View.subvec_vat H.vD _ _ hk]; exact hs.hD _ (by rw [H.nD]; omega))
        (fun k hk => by
          obtain ⟨r, c, hr', hc', e1, e2⟩ := ha0 i k (by omega)
          rw [e1, ← e2]; exact H.cell hs hr' hc')
        (fun k hk => (hr _ (by omega) (by omega)).fl) (fun k hk => fT i _ (by omega) (by omega))
        (fun k hk => (hr _ (by omega) (by omega)).small) lu
    exact this.mono fun m' h => EBwd.step hvb hr h

end
end Armas
