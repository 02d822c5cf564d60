import Verif.Cache
import Verif.GemmLemmas
import Mathlib.Tactic.Linarith
import Mathlib.Tactic.Positivity

/-! # Lemmas on the configuration and the cache buffer -/

namespace Armas

theorem mask4_le (x : Nat) : mask4 x ≤ x := by unfold mask4; omega

theorem mask4_pos {x : Nat} (h : 4 ≤ x) : 4 ≤ mask4 x := by unfold mask4; omega

/-- Size bound shared by both splits: `w` is `mb+nb` or `mb+2*nb`. -/
theorem split_bound {S mb nb kb w kn kn' nn mn : Nat} (hk : 0 < kb) (hn : 0 < nb)
    (hkn : kn * kn ≤ kb * S / w) (hkn' : kn' ≤ kn) (hnn : nn ≤ kn' * nb / kb) (hmn : mn ≤ nn * mb / nb)
    {r : Nat} (hw : mb + r * nb = w) : (mn + r * nn) * kn' ≤ S := by
  have h1 : kn' * kn' * w ≤ kb * S := by
    have : kn' * kn' ≤ kb * S / w := le_trans (Nat.mul_le_mul hkn' hkn') hkn
    exact le_trans (Nat.mul_le_mul_right w this) (Nat.div_mul_le_self _ _)
  have h2 : nn * kb ≤ kn' * nb := le_trans (Nat.mul_le_mul_right kb hnn) (Nat.div_mul_le_self _ _)
  have h3 : mn * nb ≤ nn * mb := le_trans (Nat.mul_le_mul_right nb hmn) (Nat.div_mul_le_self _ _)
  have h4 : (mn + r * nn) * kn' * (kb * nb) ≤ S * (kb * nb) := by
    calc (mn + r * nn) * kn' * (kb * nb) = (mn * nb + r * nn * nb) * (kn' * kb) := by ring
      _ ≤ (nn * mb + r * nn * nb) * (kn' * kb) := Nat.mul_le_mul_right _ (by omega)
      _ = nn * kb * (w * kn') := by rw [← hw]; ring
      _ ≤ kn' * nb * (w * kn') := Nat.mul_le_mul_right _ h2
      _ = kn' * kn' * w * nb := by ring
      _ ≤ kb * S * nb := Nat.mul_le_mul_right _ h1
      _ = S * (kb * nb) := by ring
  exact Nat.le_of_mul_le_mul_right h4 (Nat.mul_pos hk hn)

theorem split2_fits {cb : CBuf} {mb nb kb p : Nat} (hl : 1024 < cb.len) (hk : 0 < kb) (hn : 0 < nb) :
    ((split2 cb mb nb kb p).1 + (split2 cb mb nb kb p).2.1) * (split2 cb mb nb kb p).2.2 ≤ cb.len / p := by
  unfold split2
  rw [if_neg (by omega)]
  dsimp only
  have := split_bound (S := cb.len / p) (mb := mb) (nb := nb) (kb := kb) (w := mb + nb) (r := 1)
    (kn := Nat.sqrt (kb * (cb.len / p) / (mb + nb)))
    (kn' := if Nat.sqrt (kb * (cb.len / p) / (mb + nb)) > 64 / p then
      Nat.sqrt (kb * (cb.len / p) / (mb + nb)) - Nat.sqrt (kb * (cb.len / p) / (mb + nb)) % (64 / p)
      else Nat.sqrt (kb * (cb.len / p) / (mb + nb))) hk hn (Nat.sqrt_le _) (by split <;> omega)
    (le_refl _) (le_refl _) (by omega)
  refine le_trans (Nat.mul_le_mul_right _ ?_) this
  rw [one_mul]
  exact Nat.add_le_add (mask4_le _) (mask4_le _)

theorem split3_fits {cb : CBuf} {mb nb kb p : Nat} (hl : 1024 < cb.len) (hk : 0 < kb) (hn : 0 < nb) :
    ((split3 cb mb nb kb p).1 + 2 * (split3 cb mb nb kb p).2.1) * (split3 cb mb nb kb p).2.2
      ≤ cb.len / p := by
  unfold split3
  rw [if_neg (by omega)]
  dsimp only
  set kb' := if kb < mb then mb else kb with hkb'
  have hk' : 0 < kb' := by rw [hkb']; split <;> omega
  have := split_bound (S := cb.len / p) (mb := mb) (nb := nb) (kb := kb') (w := 2 * nb + mb) (r := 2)
    (kn := Nat.sqrt (kb' * (cb.len / p) / (2 * nb + mb)))
    (kn' := if Nat.sqrt (kb' * (cb.len / p) / (2 * nb + mb)) > 64 / p then
      Nat.sqrt (kb' * (cb.len / p) / (2 * nb + mb)) - Nat.sqrt (kb' * (cb.len / p) / (2 * nb + mb)) % (64 / p)
      else Nat.sqrt (kb' * (cb.len / p) / (2 * nb + mb))) hk' hn (Nat.sqrt_le _) (by split <;> omega)
    (le_refl _) (le_refl _) (by omega)
  refine le_trans (Nat.mul_le_mul_right _ ?_) this
  exact Nat.add_le_add (mask4_le _) (Nat.mul_le_mul_left _ (mask4_le _))

theorem setupRb_ok {l1mem KB MB p : Nat} (hK : 0 < KB) (hp : 0 < p) (hM : 0 < MB) :
    ∃ rb, setupRb l1mem KB MB p = .ok rb ∧ 0 < rb ∧ rb ≤ MB := by
  unfold setupRb
  have : KB * p ≠ 0 := Nat.mul_ne_zero (by omega) (by omega)
  by_cases h : l1mem > 0
  · rw [if_pos h, if_neg this]
    have hr : 0 < (if mask4 (l1mem / (KB * p)) = 0 then 4 else mask4 (l1mem / (KB * p))) := by
      split <;> omega
    dsimp only
    generalize (if mask4 (l1mem / (KB * p)) = 0 then 4 else mask4 (l1mem / (KB * p))) = rb at hr
    refine ⟨_, rfl, ?_, ?_⟩ <;> split <;> omega
  · rw [if_neg h]; exact ⟨_, rfl, hM, le_refl _⟩

/-- The cells of a block with `KB` rows and stride `KB`. -/
theorem foot_range {V : View} (h : V.step = V.rows) {q : Nat} (hq : q ∈ V.foot) :
    V.base ≤ q ∧ q < V.base + V.cols * V.rows := by
  obtain ⟨i, j, hi, hj, rfl⟩ := hq
  simp only [View.at', h]
  refine ⟨by omega, ?_⟩
  have : (j + 1) * V.rows ≤ V.cols * V.rows := Nat.mul_le_mul_right _ (by omega)
  rw [Nat.add_mul] at this
  omega

/-- Buffers whose stride is the block height are usable when the memory behind them is allocated. -/
theorem Cache.ready_of_range {α : Type} {c : Cache} {m : Mem α} {D S : Nat}
    (hkb : 0 < c.KB) (hnb : 0 < c.NB) (hmb : 0 < c.MB) (hrb : 0 < c.rb) (hst : c.step = c.KB)
    (hA : c.Acpy = D) (hB : c.Bcpy = D + c.MB * c.KB) (hfit : (c.MB + c.NB) * c.KB ≤ S)
    (hm : ∀ q, D ≤ q → q < D + S → ∃ v, m q = some v) :
    c.Ready m ∧ ∀ q ∈ c.foot, D ≤ q ∧ q < D + S := by
  have hfA : ∀ q ∈ (c.A c.KB c.MB).foot, D ≤ q ∧ q < D + c.MB * c.KB := by
    intro q hq
    have := foot_range (V := c.A c.KB c.MB) hst hq
    simpa [Cache.A, hA] using this
  have hfB : ∀ q ∈ (c.B c.KB c.NB).foot, D + c.MB * c.KB ≤ q ∧ q < D + c.MB * c.KB + c.NB * c.KB := by
    intro q hq
    have := foot_range (V := c.B c.KB c.NB) hst hq
    simpa [Cache.B, hB] using this
  rw [Nat.add_mul] at hfit
  have hall : ∀ q ∈ c.foot, D ≤ q ∧ q < D + S := by
    rintro q (hq | hq)
    · have := hfA q hq; omega
    · have := hfB q hq; omega
  classical
  have alloc : ∀ V : View, V.foot ⊆ c.foot → ∃ a, Holds m V a := by
    intro V hV
    by_cases hne : ∃ v : α, True
    · obtain ⟨d, -⟩ := hne
      refine ⟨fun i j => (m (V.at' i j)).getD d, ?_⟩
      intro i j hi hj
      have hr := hall _ (hV (View.at_mem_foot hi hj))
      obtain ⟨v, hv⟩ := hm _ hr.1 hr.2
      simp [hv]
    · exfalso
      have h1 : 0 < c.NB * c.KB := Nat.mul_pos hnb hkb
      obtain ⟨v, _⟩ := hm D (le_refl _) (by omega)
      exact hne ⟨v, trivial⟩
  refine ⟨⟨hkb, hnb, hmb, hrb, by omega, alloc _ Set.subset_union_left, alloc _ Set.subset_union_right, ?_⟩,
    hall⟩
  refine Set.disjoint_left.mpr (fun q h1 h2 => ?_)
  have := hfA q h1; have := hfB q h2; omega

/-! ## Environment -/

/-- Usable settings. -/
def EnvConf.Good (e : EnvConf) : Prop :=
  0 < e.mb ∧ 0 < e.nb ∧ 0 < e.kb ∧ 0 < e.lb ∧ 0 < e.blas1min ∧ 0 < e.blas2min ∧
  4096 ≤ e.cmem ∧ 1024 ≤ e.l1mem

theorem confTok_good (lc : Libc) (n : Nat) (t : List Char) {e : EnvConf} (h : e.Good) :
    (confTok lc n t e).Good := by
  unfold EnvConf.Good at *
  unfold confTok
  dsimp only
  split <;> (try split) <;> simp_all

theorem cacheTok_good (lc : Libc) (n : Nat) (t : List Char) {e : EnvConf} (h : e.Good) :
    (cacheTok lc n t e).Good := by
  unfold EnvConf.Good at *
  unfold cacheTok
  generalize cacheVal lc t = w
  dsimp only
  split
  · split
    · refine ⟨h.1, h.2.1, h.2.2.1, h.2.2.2.1, h.2.2.2.2.1, h.2.2.2.2.2.1, ?_, h.2.2.2.2.2.2.2⟩
      dsimp only
      split <;> omega
    · exact h
  · split
    · refine ⟨h.1, h.2.1, h.2.2.1, h.2.2.2.1, h.2.2.2.2.1, h.2.2.2.2.2.1, h.2.2.2.2.2.2.1, ?_⟩
      dsimp only
      split <;> omega
    · exact h
  · exact h

theorem eachTok_good {f : Nat → List Char → EnvConf → EnvConf}
    (hf : ∀ n t e, e.Good → (f n t e).Good) : ∀ ts n e, e.Good → (eachTok f n ts e).Good
  | [], _, _, h => h
  | t :: ts, n, e, h => eachTok_good hf ts (n + 1) _ (hf n t e h)

theorem default_good : EnvConf.default.Good := by
  unfold EnvConf.Good EnvConf.default; decide

end Armas
