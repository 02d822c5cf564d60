import Verif.EBlas
import Verif.EftDiv
import Verif.EftProd
import Verif.Logic
import Mathlib.Tactic.Positivity
import Mathlib.Tactic.GCongr
import Mathlib.Tactic.FieldSimp

/-! # Error analysis of compensated sums and inner products -/

namespace Armas

/-- Unit roundoff of a format with `p` bits. -/
def uround (p : Nat) : ℚ := 1 / 2 ^ p

theorem uround_pos (p : Nat) : 0 < uround p := by unfold uround; positivity

theorem Nearest.rel {p : Nat} {rn : ℚ → ℚ} (h : Nearest p rn) (hp : 0 < p) (x : ℚ) :
    |rn x - x| ≤ uround p * |x| := by
  rw [abs_sub_comm]
  by_cases hx : x = 0
  · subst hx; rw [h.exact (fl_zero p)]; simp
  obtain ⟨e, h1, h2⟩ := exists_exp p hx
  have h3 := h.err hp h2.le
  have hpp : (0 : ℚ) < 2 ^ p := by positivity
  rw [uround, one_div, ← div_eq_inv_mul, le_div_iff₀ hpp]
  nlinarith

/-- Growth of `k` roundings. -/
def gr (u : ℚ) (k : Nat) : ℚ := (1 + u) ^ k - 1

section
variable {u : ℚ}

theorem gr_zero : gr u 0 = 0 := by simp [gr]
theorem gr_one : gr u 1 = u := by simp [gr]

theorem gr_succ (k : Nat) : gr u (k + 1) = (1 + u) * gr u k + u := by
  simp only [gr, pow_succ]; ring

theorem gr_nonneg (hu : 0 ≤ u) (k : Nat) : 0 ≤ gr u k :=
  sub_nonneg.2 (one_le_pow₀ (by linarith))

theorem gr_mono (hu : 0 ≤ u) {j k : Nat} (h : j ≤ k) : gr u j ≤ gr u k :=
  sub_le_sub_right (pow_le_pow_right₀ (by linarith) h) 1

/-- A correction: `c` is the sum `E` of terms of total size at most `A`, up to `k` roundings. -/
structure Cr (u : ℚ) (k : Nat) (c E A : ℚ) : Prop where
  le : |E| ≤ A
  err : |c - E| ≤ gr u k * A

/-- A rounded sum: `s` is the sum `T` of terms of total size at most `S` without errors that sum to
`E` and have total size at most `A`. -/
structure Sm (u : ℚ) (k : Nat) (T S s E A : ℚ) : Prop where
  eq : T = s + E
  le : |E| ≤ A
  small : A ≤ gr u k * S
  tot : |T| ≤ S

theorem Cr.exact (z : ℚ) : Cr u 0 z z |z| := ⟨le_rfl, by simp [gr_zero]⟩

theorem Cr.mono (hu : 0 ≤ u) {j k : Nat} {c E A : ℚ} (h : Cr u j c E A) (hjk : j ≤ k) :
    Cr u k c E A :=
  ⟨h.le, le_trans h.err (mul_le_mul_of_nonneg_right (gr_mono hu hjk)
    (le_trans (abs_nonneg _) h.le))⟩

theorem Cr.zero (hu : 0 ≤ u) (k : Nat) : Cr u k 0 0 0 :=
  ⟨by simp, by simp⟩

theorem Cr.size (hu : 0 ≤ u) {k : Nat} {c E A : ℚ} (h : Cr u k c E A) :
    |c| ≤ (1 + gr u k) * A := by
  have := h.err
  have := h.le
  have : |c| ≤ |c - E| + |E| := by
    calc |c| = |(c - E) + E| := by ring_nf
      _ ≤ _ := abs_add_le _ _
  linarith

theorem Sm.mono (hu : 0 ≤ u) {j k : Nat} {T S s E A : ℚ} (h : Sm u j T S s E A) (hjk : j ≤ k) :
    Sm u k T S s E A :=
  ⟨h.eq, h.le, le_trans h.small (mul_le_mul_of_nonneg_right (gr_mono hu hjk)
    (le_trans (abs_nonneg _) h.tot)), h.tot⟩

theorem Sm.val (x : ℚ) : Sm u 0 x |x| x 0 0 := ⟨by ring, by simp, by simp [gr_zero], le_rfl⟩

theorem Sm.zero (k : Nat) : Sm u k 0 0 0 0 0 := ⟨by ring, by simp, by simp, by simp⟩

/-- Rounding `v`, which is near `E`. -/
theorem round_err {v E r d : ℚ} (hu : 0 ≤ u) (hr : |r - v| ≤ u * |v|) (h : |v - E| ≤ d) :
    |r - E| ≤ (1 + u) * d + u * |E| := by
  have h1 : |v| ≤ d + |E| := by
    calc |v| = |(v - E) + E| := by ring_nf
      _ ≤ |v - E| + |E| := abs_add_le _ _
      _ ≤ _ := by linarith
  calc |r - E| = |(r - v) + (v - E)| := by ring_nf
    _ ≤ |r - v| + |v - E| := abs_add_le _ _
    _ ≤ u * (d + |E|) + d := by nlinarith
    _ = _ := by ring

end

section
variable {p : Nat} {rn : ℚ → ℚ} (hp : 0 < p) (R : Nearest p rn)
include hp R

theorem Cr.add {k : Nat} {c c' E E' A A' : ℚ} (h : Cr (uround p) k c E A)
    (h' : Cr (uround p) k c' E' A') :
    Cr (uround p) (k + 1) (rn (c + c')) (E + E') (A + A') := by
  have hu := (uround_pos p).le
  have hE : |E + E'| ≤ A + A' := le_trans (abs_add_le _ _) (add_le_add h.le h'.le)
  refine ⟨hE, ?_⟩
  have d : |c + c' - (E + E')| ≤ gr (uround p) k * (A + A') := by
    calc |c + c' - (E + E')| = |(c - E) + (c' - E')| := by ring_nf
      _ ≤ |c - E| + |c' - E'| := abs_add_le _ _
      _ ≤ _ := by have := h.err; have := h'.err; linarith
  refine le_trans (round_err hu (R.rel hp _) d) ?_
  rw [gr_succ]
  nlinarith

theorem Cr.scale {k : Nat} {c E A : ℚ} (a : ℚ) (h : Cr (uround p) k c E A) :
    Cr (uround p) (k + 1) (rn (a * c)) (a * E) (|a| * A) := by
  have hu := (uround_pos p).le
  have hE : |a * E| ≤ |a| * A := by
    rw [abs_mul]; exact mul_le_mul_of_nonneg_left h.le (abs_nonneg _)
  refine ⟨hE, ?_⟩
  have d : |a * c - a * E| ≤ gr (uround p) k * (|a| * A) := by
    rw [← mul_sub, abs_mul]
    have := mul_le_mul_of_nonneg_left h.err (abs_nonneg a)
    linarith
  refine le_trans (round_err hu (R.rel hp _) d) ?_
  rw [gr_succ]
  nlinarith

theorem twosum_err {a b : ℚ} (ha : Fl p a) (hb : Fl p b) :
    Fl p (twosum rn a b).1 ∧ (twosum rn a b).1 + (twosum rn a b).2 = a + b ∧
      |(twosum rn a b).2| ≤ uround p * |a + b| := by
  obtain ⟨h1, h2⟩ := R.twosum_exact hp ha hb
  refine ⟨by rw [h1]; exact R.fl _, h2, ?_⟩
  have : (twosum rn a b).2 = -(rn (a + b) - (a + b)) := by rw [← h1, ← h2]; ring
  rw [this, abs_neg]
  exact R.rel hp _

theorem Sm.add {k : Nat} {T T' S S' s s' E E' A A' : ℚ} (h : Sm (uround p) k T S s E A)
    (h' : Sm (uround p) k T' S' s' E' A') (hs : Fl p s) (hs' : Fl p s') :
    Sm (uround p) (k + 1) (T + T') (S + S') (twosum rn s s').1 (E + E' + (twosum rn s s').2)
      (A + A' + |(twosum rn s s').2|) := by
  have hu := (uround_pos p).le
  obtain ⟨_, h2, h3⟩ := twosum_err hp R hs hs'
  refine ⟨by rw [h.eq, h'.eq]; linarith, ?_, ?_,
    le_trans (abs_add_le _ _) (add_le_add h.tot h'.tot)⟩
  · refine le_trans (abs_add_le _ _) (add_le_add (le_trans (abs_add_le _ _) ?_) le_rfl)
    exact add_le_add h.le h'.le
  · have hss : |s + s'| ≤ S + S' + (A + A') := by
      calc |s + s'| = |(T + T') - (E + E')| := by rw [h.eq, h'.eq]; ring_nf
        _ ≤ |T + T'| + |E + E'| := abs_sub _ _
        _ ≤ (|T| + |T'|) + (|E| + |E'|) := add_le_add (abs_add_le _ _) (abs_add_le _ _)
        _ ≤ _ := by have := h.tot; have := h'.tot; have := h.le; have := h'.le; linarith
    have h4 := h.small
    have h5 := h'.small
    have h6 := mul_le_mul_of_nonneg_left hss hu
    rw [gr_succ]
    nlinarith

end

/-- `tp` is error free on numbers with `p` bits: what C56 proves of the variants of `twoprod`. -/
def ProdOk (p : Nat) (rn : ℚ → ℚ) (tp : ℚ → ℚ → ℚ × ℚ) : Prop :=
  ∀ a b, Fl p a → Fl p b → (tp a b).1 = rn (a * b) ∧ (tp a b).1 + (tp a b).2 = a * b

section
variable {p : Nat} {rn : ℚ → ℚ} {tp : ℚ → ℚ → ℚ × ℚ} (hp : 0 < p) (R : Nearest p rn)
  (P : ProdOk p rn tp)
include hp R P

theorem prod_err {a b : ℚ} (ha : Fl p a) (hb : Fl p b) :
    Fl p (tp a b).1 ∧ (tp a b).1 + (tp a b).2 = a * b ∧ |(tp a b).2| ≤ uround p * |a * b| := by
  obtain ⟨h1, h2⟩ := P a b ha hb
  refine ⟨by rw [h1]; exact R.fl _, h2, ?_⟩
  have : (tp a b).2 = -(rn (a * b) - a * b) := by rw [← h1, ← h2]; ring
  rw [this, abs_neg]
  exact R.rel hp _

theorem Sm.prod {a b : ℚ} (ha : Fl p a) (hb : Fl p b) :
    Sm (uround p) 1 (a * b) |a * b| (tp a b).1 (tp a b).2 |(tp a b).2| := by
  obtain ⟨_, h2, h3⟩ := prod_err hp R P ha hb
  exact ⟨h2.symm, le_rfl, by rwa [gr_one], le_rfl⟩

end

/-- A pair of a rounded sum and its correction. -/
def Acc (p k : Nat) (T S : ℚ) (sc : ℚ × ℚ) : Prop :=
  Fl p sc.1 ∧ ∃ E A, Sm (uround p) k T S sc.1 E A ∧ Cr (uround p) k sc.2 E A

theorem Acc.zero (p k : Nat) : Acc p k 0 0 (0, 0) :=
  ⟨fl_zero p, 0, 0, Sm.zero k, Cr.zero (uround_pos p).le k⟩

theorem Acc.mono {p j k : Nat} {T S : ℚ} {sc : ℚ × ℚ} (h : Acc p j T S sc) (hjk : j ≤ k) :
    Acc p k T S sc := by
  obtain ⟨f, E, A, h1, h2⟩ := h
  have hu := (uround_pos p).le
  exact ⟨f, E, A, h1.mono hu hjk, h2.mono hu hjk⟩

section
variable {p : Nat} {rn : ℚ → ℚ} {tp : ℚ → ℚ → ℚ × ℚ} (hp : 0 < p) (R : Nearest p rn)
include hp R

theorem Acc.dotStep (P : ProdOk p rn tp) {k : Nat} {T S x y : ℚ} {sc : ℚ × ℚ}
    (h : Acc p (k + 1) T S sc) (hx : Fl p x) (hy : Fl p y) :
    Acc p (k + 2) (T + x * y) (S + |x * y|) (dotStep rn tp x y sc) := by
  have hu := (uround_pos p).le
  obtain ⟨f, E, A, h1, h2⟩ := h
  obtain ⟨fh, _, _⟩ := prod_err hp R P hx hy
  have hm := (Sm.prod hp R P hx hy).mono hu (show 1 ≤ k + 1 by omega)
  have hs := h1.add hp R hm f fh
  refine ⟨(twosum_err hp R f fh).1, _, _, hs, ?_⟩
  have c1 := ((Cr.exact (u := uround p) (twosum rn sc.1 (tp x y).1).2).add hp R
    (Cr.exact (tp x y).2)).mono hu (show 1 ≤ k + 1 by omega)
  have c2 := h2.add hp R c1
  have e1 : E + (tp x y).2 + (twosum rn sc.1 (tp x y).1).2
      = E + ((twosum rn sc.1 (tp x y).1).2 + (tp x y).2) := by ring
  have e2 : A + |(tp x y).2| + |(twosum rn sc.1 (tp x y).1).2|
      = A + (|(twosum rn sc.1 (tp x y).1).2| + |(tp x y).2|) := by ring
  rw [e1, e2]
  exact c2

theorem Acc.sumStep {k : Nat} {T S x : ℚ} {sc : ℚ × ℚ}
    (h : Acc p k T S sc) (hx : Fl p x) :
    Acc p (k + 1) (T + x) (S + |x|) (sumStep rn x sc) := by
  have hu := (uround_pos p).le
  obtain ⟨f, E, A, h1, h2⟩ := h
  have hs := h1.add hp R ((Sm.val x).mono hu (show 0 ≤ k by omega)) f hx
  refine ⟨(twosum_err hp R f hx).1, _, _, hs, ?_⟩
  have c2 := h2.add hp R ((Cr.exact (u := uround p) (twosum rn sc.1 x).2).mono hu (show 0 ≤ k by omega))
  rw [add_zero, add_zero]
  exact c2

/-- The value of a pair, rounded. -/
theorem Acc.final {k : Nat} {T S : ℚ} {sc : ℚ × ℚ} (h : Acc p k T S sc) :
    |rn (sc.1 + sc.2) - T| ≤ uround p * |T| + gr (uround p) (k + 1) * gr (uround p) k * S := by
  have hu := (uround_pos p).le
  obtain ⟨f, E, A, h1, h2⟩ := h
  have d : |sc.1 + sc.2 - T| ≤ gr (uround p) k * (gr (uround p) k * S) := by
    rw [h1.eq, add_sub_add_left_eq_sub]
    exact le_trans h2.err (mul_le_mul_of_nonneg_left h1.small (gr_nonneg hu k))
  refine le_trans (round_err hu (R.rel hp _) d) ?_
  have hS : 0 ≤ S := le_trans (abs_nonneg _) h1.tot
  have := mul_nonneg (gr_nonneg hu k) hS
  rw [gr_succ]
  nlinarith


theorem Acc.merge {k : Nat} {T T' S S' : ℚ} {a b : ℚ × ℚ} (h : Acc p k T S a)
    (h' : Acc p k T' S' b) :
    Acc p (k + 2) (T + T') (S + S')
      ((twosum rn a.1 b.1).1, rn (rn (a.2 + (twosum rn a.1 b.1).2) + b.2)) ∧
    Acc p (k + 2) (T + T') (S + S')
      ((twosum rn a.1 b.1).1, rn (a.2 + rn (b.2 + (twosum rn a.1 b.1).2))) := by
  have hu := (uround_pos p).le
  obtain ⟨f, E, A, h1, h2⟩ := h
  obtain ⟨f', E', A', h1', h2'⟩ := h'
  have hs := (h1.add hp R h1' f f').mono hu (show k + 1 ≤ k + 2 by omega)
  have fl := (twosum_err hp R f f').1
  have cz := (Cr.exact (u := uround p) (twosum rn a.1 b.1).2).mono hu (show 0 ≤ k by omega)
  refine ⟨⟨fl, _, _, hs, ?_⟩, ⟨fl, _, _, hs, ?_⟩⟩
  · have := (h2.add hp R cz).add hp R (h2'.mono hu (show k ≤ k + 1 by omega))
    rw [show E + E' + (twosum rn a.1 b.1).2 = E + (twosum rn a.1 b.1).2 + E' by ring,
      show A + A' + |(twosum rn a.1 b.1).2| = A + |(twosum rn a.1 b.1).2| + A' by ring]
    exact this
  · have := (h2.mono hu (show k ≤ k + 1 by omega)).add hp R (h2'.add hp R cz)
    rw [show E + E' + (twosum rn a.1 b.1).2 = E + (E' + (twosum rn a.1 b.1).2) by ring,
      show A + A' + |(twosum rn a.1 b.1).2| = A + (A' + |(twosum rn a.1 b.1).2|) by ring]
    exact this

end

open Finset

theorem even_step {N i : Nat} (h : i < N - 1) (he : 2 ∣ i) : i + 2 ≤ N ∧ 2 ∣ i + 2 := by omega

section
variable {p : Nat} {rn : ℚ → ℚ} {tp : ℚ → ℚ → ℚ × ℚ} (hp : 0 < p) (R : Nearest p rn)
include hp R

theorem extDot_spec (P : ProdOk p rn tp) {m : Mem ℚ} {X Y : View} {x y : Nat → ℚ}
    (hX : HoldsV m X x) (hY : HoldsV m Y y) (hXY : X.size ≤ Y.size)
    (fx : ∀ i, i < X.size → Fl p (x i)) (fy : ∀ i, i < X.size → Fl p (y i)) :
    Runs (extDot rn tp m X Y) (fun r => ∃ sc : ℚ × ℚ, r = rn (sc.1 + sc.2) ∧
      Acc p ((X.size + 1) / 2 + 3) (∑ i ∈ range X.size, x i * y i)
        (∑ i ∈ range X.size, |x i * y i|) sc) := by
  unfold extDot
  dsimp only
  refine Runs.bind (Runs.forUp (Q := fun q => 2 ∣ q.1 ∧ q.1 ≤ X.size ∧ X.size - 1 ≤ q.1 ∧
      ∃ T0 S0 T1 S1, T0 + T1 = ∑ j ∈ range q.1, x j * y j ∧
        S0 + S1 = ∑ j ∈ range q.1, |x j * y j| ∧
        Acc p (q.1 / 2 + 1) T0 S0 q.2.1 ∧ Acc p (q.1 / 2 + 1) T1 S1 q.2.2)
    (fun i st => 2 ∣ i ∧ i ≤ X.size ∧ ∃ T0 S0 T1 S1, T0 + T1 = ∑ j ∈ range i, x j * y j ∧
        S0 + S1 = ∑ j ∈ range i, |x j * y j| ∧
        Acc p (i / 2 + 1) T0 S0 st.1 ∧ Acc p (i / 2 + 1) T1 S1 st.2) (by omega)
    ⟨by omega, by omega, 0, 0, 0, 0, by simp, by simp, Acc.zero p _, Acc.zero p _⟩ ?_ ?_) ?_
  · rintro i st - hi ⟨he, hle, T0, S0, T1, S1, hT, hS, a0, a1⟩
    obtain ⟨hn, he'⟩ := even_step hi he
    refine Runs.rd_bind (hX (i + 0) (by omega)) (Runs.rd_bind (hY (i + 0) (by omega))
      (Runs.rd_bind (hX (i + 1) (by omega)) (Runs.rd_bind (hY (i + 1) (by omega)) (Runs.pure ?_))))
    have b0 := a0.dotStep hp R P (fx i (by omega)) (fy i (by omega))
    have b1 := a1.dotStep hp R P (fx (i + 1) (by omega)) (fy (i + 1) (by omega))
    refine ⟨he', hn, _, _, _, _, ?_, ?_, by rw [show (i + 2) / 2 + 1 = i / 2 + 2 by omega]; exact b0,
      by rw [show (i + 2) / 2 + 1 = i / 2 + 2 by omega]; exact b1⟩
    · rw [sum_range_succ, sum_range_succ, ← hT]; ring
    · rw [sum_range_succ, sum_range_succ, ← hS]; ring
  · rintro k st hk - ⟨he, hle, h⟩
    exact ⟨he, hle, hk, h⟩
  rintro ⟨i, st⟩ ⟨he, hle, hge, T0, S0, T1, S1, hT, hS, a0, a1⟩
  dsimp only at *
  have key : Runs (if i = X.size then pure st.1 else do
      let x0 ← rd m (X.vat i)
      let y0 ← rd m (Y.vat i)
      pure (dotStep rn tp x0 y0 st.1) : Res (ℚ × ℚ)) (fun sc => ∃ T0' S0',
        T0' + T1 = ∑ j ∈ range X.size, x j * y j ∧ S0' + S1 = ∑ j ∈ range X.size, |x j * y j| ∧
        Acc p ((X.size + 1) / 2 + 1) T0' S0' sc) := by
    split_ifs with hi
    · subst hi
      exact Runs.pure ⟨T0, S0, hT, hS, a0.mono (by omega)⟩
    · refine Runs.rd_bind (hX i (by omega)) (Runs.rd_bind (hY i (by omega)) (Runs.pure ?_))
      have b0 := a0.dotStep hp R P (fx i (by omega)) (fy i (by omega))
      refine ⟨_, _, ?_, ?_, b0.mono (by omega)⟩
      · rw [show X.size = i + 1 by omega, sum_range_succ, ← hT]; ring
      · rw [show X.size = i + 1 by omega, sum_range_succ, ← hS]; ring
  refine Runs.bind key ?_
  rintro sc ⟨T0', S0', hT', hS', a0'⟩
  have := (a0'.merge hp R (a1.mono (show i / 2 + 1 ≤ (X.size + 1) / 2 + 1 by omega))).1
  rw [hT', hS'] at this
  exact Runs.pure ⟨((twosum rn sc.1 st.2.1).1, rn (rn (sc.2 + (twosum rn sc.1 st.2.1).2) + st.2.2)),
    rfl, this⟩

/-- The loop of `armas_ext_adot_unsafe`. -/
theorem adotLoop_spec (P : ProdOk p rn tp) {m : Mem ℚ} {X Y : View} {x y : Nat → ℚ}
    (hX : HoldsV m X x) (hY : HoldsV m Y y) (hXY : X.size ≤ Y.size)
    (fx : ∀ i, i < X.size → Fl p (x i)) (fy : ∀ i, i < X.size → Fl p (y i)) :
    Runs (forUp 0 X.size 1 (fun i (sc : ℚ × ℚ) => do
      let x ← rd m (X.vat i)
      let y ← rd m (Y.vat i)
      pure (dotStep rn tp x y sc)) (0, 0)) (fun q =>
      Acc p (X.size + 1) (∑ i ∈ range X.size, x i * y i) (∑ i ∈ range X.size, |x i * y i|) q.2) := by
  refine Runs.forUp1 (fun i sc => Acc p (i + 1) (∑ j ∈ range i, x j * y j)
    (∑ j ∈ range i, |x j * y j|) sc) (by omega) (by simpa using Acc.zero p 1) ?_ (fun st h => h)
  intro i sc _ hi h
  refine Runs.rd_bind (hX i hi) (Runs.rd_bind (hY i (by omega)) (Runs.pure ?_))
  rw [sum_range_succ, sum_range_succ]
  exact h.dotStep hp R P (fx i hi) (fy i hi)

theorem extAsum2s_spec {m : Mem ℚ} {X : View} {x : Nat → ℚ}
    (hX : HoldsV m X x) (fx : ∀ i, i < X.size → Fl p (x i)) :
    Runs (extAsum2s rn m X X.size) (fun r => Acc p ((X.size + 1) / 2 + 2)
      (∑ i ∈ range X.size, |x i|) (∑ i ∈ range X.size, |x i|) r) := by
  have fa : ∀ i, i < X.size → Fl p |x i| := fun i hi => by
    rcases abs_choice (x i) with h | h <;> rw [h]
    exacts [fx i hi, (fx i hi).neg]
  unfold extAsum2s
  refine Runs.bind (Runs.forUp (Q := fun q => 2 ∣ q.1 ∧ q.1 ≤ X.size ∧ X.size - 1 ≤ q.1 ∧
      ∃ T0 T1, T0 + T1 = ∑ j ∈ range q.1, |x j| ∧
        Acc p (q.1 / 2) T0 T0 q.2.1 ∧ Acc p (q.1 / 2) T1 T1 q.2.2)
    (fun i st => 2 ∣ i ∧ i ≤ X.size ∧ ∃ T0 T1, T0 + T1 = ∑ j ∈ range i, |x j| ∧
        Acc p (i / 2) T0 T0 st.1 ∧ Acc p (i / 2) T1 T1 st.2) (by omega)
    ⟨by omega, by omega, 0, 0, by simp, Acc.zero p _, Acc.zero p _⟩ ?_ ?_) ?_
  · rintro i st - hi ⟨he, hle, T0, T1, hT, a0, a1⟩
    obtain ⟨hn, he'⟩ := even_step hi he
    refine Runs.rd_bind (hX (i + 0) (by omega)) (Runs.rd_bind (hX (i + 1) (by omega)) (Runs.pure ?_))
    have b0 := a0.sumStep hp R (fa i (by omega))
    have b1 := a1.sumStep hp R (fa (i + 1) (by omega))
    rw [abs_abs] at b0 b1
    refine ⟨he', hn, _, _, ?_, by rw [show (i + 2) / 2 = i / 2 + 1 by omega]; exact b0,
      by rw [show (i + 2) / 2 = i / 2 + 1 by omega]; exact b1⟩
    rw [sum_range_succ, sum_range_succ, ← hT]; ring
  · rintro k st hk - ⟨he, hle, h⟩
    exact ⟨he, hle, hk, h⟩
  rintro ⟨i, st⟩ ⟨he, hle, hge, T0, T1, hT, a0, a1⟩
  dsimp only at *
  have key : Runs (if i = X.size then pure st.1 else do
      let x0 ← rd m (X.vat i)
      pure (sumStep rn |x0| st.1) : Res (ℚ × ℚ)) (fun sc => ∃ T0',
        T0' + T1 = ∑ j ∈ range X.size, |x j| ∧ Acc p ((X.size + 1) / 2) T0' T0' sc) := by
    split_ifs with hi
    · subst hi
      exact Runs.pure ⟨T0, hT, a0.mono (by omega)⟩
    · refine Runs.rd_bind (hX i (by omega)) (Runs.pure ?_)
      have b0 := a0.sumStep hp R (fa i (by omega))
      rw [abs_abs] at b0
      refine ⟨_, ?_, b0.mono (by omega)⟩
      rw [show X.size = i + 1 by omega, sum_range_succ, ← hT]; ring
  refine Runs.bind key ?_
  rintro sc ⟨T0', hT', a0'⟩
  refine Runs.pure ?_
  have := (a0'.merge hp R (a1.mono (show i / 2 ≤ (X.size + 1) / 2 by omega))).2
  rw [hT'] at this
  exact this

theorem sum2s_merge {k : Nat} {T0 T1 T2 T3 S0 S1 S2 S3 : ℚ} {a0 a1 a2 a3 : ℚ × ℚ}
    (h0 : Acc p k T0 S0 a0) (h1 : Acc p k T1 S1 a1) (h2 : Acc p k T2 S2 a2)
    (h3 : Acc p k T3 S3 a3) :
    Acc p (k + 6) (T0 + T1 + T2 + T3) (S0 + S1 + S2 + S3)
      ((twosum rn (twosum rn (twosum rn a0.1 a1.1).1 a2.1).1 a3.1).1,
        rn (rn (rn (rn (a0.2 + rn (rn (a1.2 + a2.2) + a3.2)) + (twosum rn a0.1 a1.1).2)
          + (twosum rn (twosum rn a0.1 a1.1).1 a2.1).2)
          + (twosum rn (twosum rn (twosum rn a0.1 a1.1).1 a2.1).1 a3.1).2)) := by
  have hu := (uround_pos p).le
  obtain ⟨f0, E0, A0, s0, c0⟩ := h0
  obtain ⟨f1, E1, A1, s1, c1⟩ := h1
  obtain ⟨f2, E2, A2, s2, c2⟩ := h2
  obtain ⟨f3, E3, A3, s3, c3⟩ := h3
  have t1 := s0.add hp R s1 f0 f1
  have g1 := (twosum_err hp R f0 f1).1
  have t2 := t1.add hp R (s2.mono hu (show k ≤ k + 1 by omega)) g1 f2
  have g2 := (twosum_err hp R g1 f2).1
  have t3 := t2.add hp R (s3.mono hu (show k ≤ k + 1 + 1 by omega)) g2 f3
  have g3 := (twosum_err hp R g2 f3).1
  refine ⟨g3, _, _, t3.mono hu (show k + 1 + 1 + 1 ≤ k + 6 by omega), ?_⟩
  have d1 := (c1.add hp R c2).add hp R (c3.mono hu (show k ≤ k + 1 by omega))
  have d2 := (c0.mono hu (show k ≤ k + 1 + 1 by omega)).add hp R d1
  have ex := fun z j => (Cr.exact (u := uround p) z).mono hu (show 0 ≤ j by omega)
  have d3 := d2.add hp R (ex (twosum rn a0.1 a1.1).2 _)
  have d4 := d3.add hp R (ex (twosum rn (twosum rn a0.1 a1.1).1 a2.1).2 _)
  have d5 := d4.add hp R (ex (twosum rn (twosum rn (twosum rn a0.1 a1.1).1 a2.1).1 a3.1).2 _)
  convert d5 using 1 <;> ring

theorem extSum2s_spec {m : Mem ℚ} {X : View} {x : Nat → ℚ}
    (hX : HoldsV m X x) (fx : ∀ i, i < X.size → Fl p (x i)) :
    Runs (extSum2s rn m X X.size) (fun r => Acc p ((X.size + 3) / 4 + 6)
      (∑ i ∈ range X.size, x i) (∑ i ∈ range X.size, |x i|) r) := by
  unfold extSum2s
  refine Runs.bind (Runs.forUp (Q := fun q => 4 ∣ q.1 ∧ q.1 ≤ X.size ∧ X.size - 3 ≤ q.1 ∧
      ∃ T0 S0 T1 S1 T2 S2 T3 S3, T0 + T1 + T2 + T3 = ∑ j ∈ range q.1, x j ∧
        S0 + S1 + S2 + S3 = ∑ j ∈ range q.1, |x j| ∧
        Acc p (q.1 / 4) T0 S0 q.2.1.1 ∧ Acc p (q.1 / 4) T1 S1 q.2.1.2 ∧
        Acc p (q.1 / 4) T2 S2 q.2.2.1 ∧ Acc p (q.1 / 4) T3 S3 q.2.2.2)
    (fun i st => 4 ∣ i ∧ i ≤ X.size ∧
      ∃ T0 S0 T1 S1 T2 S2 T3 S3, T0 + T1 + T2 + T3 = ∑ j ∈ range i, x j ∧
        S0 + S1 + S2 + S3 = ∑ j ∈ range i, |x j| ∧
        Acc p (i / 4) T0 S0 st.1.1 ∧ Acc p (i / 4) T1 S1 st.1.2 ∧
        Acc p (i / 4) T2 S2 st.2.1 ∧ Acc p (i / 4) T3 S3 st.2.2) (by omega)
    ⟨by omega, by omega, 0, 0, 0, 0, 0, 0, 0, 0, by simp, by simp, Acc.zero p _, Acc.zero p _,
      Acc.zero p _, Acc.zero p _⟩ ?_ ?_) ?_
  · rintro i st - hi ⟨he, hle, T0, S0, T1, S1, T2, S2, T3, S3, hT, hS, a0, a1, a2, a3⟩
    refine Runs.rd_bind (hX (i + 0) (by omega)) (Runs.rd_bind (hX (i + 1) (by omega))
      (Runs.rd_bind (hX (i + 2) (by omega)) (Runs.rd_bind (hX (i + 3) (by omega)) (Runs.pure ?_))))
    have b0 := a0.sumStep hp R (fx i (by omega))
    have b1 := a1.sumStep hp R (fx (i + 1) (by omega))
    have b2 := a2.sumStep hp R (fx (i + 2) (by omega))
    have b3 := a3.sumStep hp R (fx (i + 3) (by omega))
    have ei : (i + 4) / 4 = i / 4 + 1 := by omega
    refine ⟨by omega, by omega, _, _, _, _, _, _, _, _, ?_, ?_, by rw [ei]; exact b0,
      by rw [ei]; exact b1, by rw [ei]; exact b2, by rw [ei]; exact b3⟩
    · rw [sum_range_succ, sum_range_succ, sum_range_succ, sum_range_succ, ← hT]; ring
    · rw [sum_range_succ, sum_range_succ, sum_range_succ, sum_range_succ, ← hS]; ring
  · rintro k st hk - ⟨he, hle, h⟩
    exact ⟨he, hle, hk, h⟩
  rintro ⟨i, st⟩ ⟨he, hle, hge, T0, S0, T1, S1, T2, S2, T3, S3, hT, hS, a0, a1, a2, a3⟩
  dsimp only at *
  refine Runs.bind (P := fun st => ∃ T0 S0 T1 S1 T2 S2 T3 S3,
        T0 + T1 + T2 + T3 = ∑ j ∈ range X.size, x j ∧
        S0 + S1 + S2 + S3 = ∑ j ∈ range X.size, |x j| ∧
        Acc p ((X.size + 3) / 4) T0 S0 st.1.1 ∧ Acc p ((X.size + 3) / 4) T1 S1 st.1.2 ∧
        Acc p ((X.size + 3) / 4) T2 S2 st.2.1 ∧ Acc p ((X.size + 3) / 4) T3 S3 st.2.2) ?_ ?_
  · have h4 : X.size - i = 0 ∨ X.size - i = 1 ∨ X.size - i = 2 ∨ X.size - i = 3 := by omega
    rcases h4 with h | h | h | h <;> rw [h]
    · have e : X.size = i := by omega
      refine Runs.pure ⟨T0, S0, T1, S1, T2, S2, T3, S3, by rw [e]; exact hT, by rw [e]; exact hS,
        a0.mono (by omega), a1.mono (by omega), a2.mono (by omega), a3.mono (by omega)⟩
    · have e : X.size = i + 1 := by omega
      refine Runs.rd_bind (hX i (by omega)) (Runs.pure ⟨T0, S0, T1, S1, T2 + x i, S2 + |x i|, T3, S3,
        ?_, ?_, a0.mono (by omega), a1.mono (by omega),
        (a2.sumStep hp R (fx i (by omega))).mono (by omega), a3.mono (by omega)⟩)
      · rw [e, sum_range_succ, ← hT]; ring
      · rw [e, sum_range_succ, ← hS]; ring
    · have e : X.size = i + 1 + 1 := by omega
      refine Runs.rd_bind (hX i (by omega)) (Runs.rd_bind (hX (i + 1) (by omega))
        (Runs.pure ⟨T0, S0, T1 + x i, S1 + |x i|, T2 + x (i + 1), S2 + |x (i + 1)|, T3, S3,
        ?_, ?_, a0.mono (by omega), (a1.sumStep hp R (fx i (by omega))).mono (by omega),
        (a2.sumStep hp R (fx (i + 1) (by omega))).mono (by omega), a3.mono (by omega)⟩))
      · rw [e, sum_range_succ, sum_range_succ, ← hT]; ring
      · rw [e, sum_range_succ, sum_range_succ, ← hS]; ring
    · have e : X.size = i + 1 + 1 + 1 := by omega
      refine Runs.rd_bind (hX i (by omega)) (Runs.rd_bind (hX (i + 1) (by omega))
        (Runs.rd_bind (hX (i + 2) (by omega))
        (Runs.pure ⟨T0 + x i, S0 + |x i|, T1 + x (i + 1), S1 + |x (i + 1)|,
        T2 + x (i + 1 + 1), S2 + |x (i + 1 + 1)|, T3, S3,
        ?_, ?_, (a0.sumStep hp R (fx i (by omega))).mono (by omega),
        (a1.sumStep hp R (fx (i + 1) (by omega))).mono (by omega),
        (a2.sumStep hp R (fx (i + 2) (by omega))).mono (by omega), a3.mono (by omega)⟩)))
      · rw [e, sum_range_succ, sum_range_succ, sum_range_succ, ← hT]; ring
      · rw [e, sum_range_succ, sum_range_succ, sum_range_succ, ← hS]; ring
  rintro st ⟨T0, S0, T1, S1, T2, S2, T3, S3, hT, hS, a0, a1, a2, a3⟩
  refine Runs.pure ?_
  have := sum2s_merge hp R a0 a1 a2 a3
  rw [hT, hS] at this
  exact this

end
end Armas
