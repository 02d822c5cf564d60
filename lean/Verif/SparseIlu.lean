import Verif.SparseSolve

/-!
# Incomplete LU factorization without fill-in
-/

namespace Armas

open Finset Classical

variable {α : Type}

/-- The first `N` cells hold `g`. -/
def Vals (v : Mem α) (N : Nat) (g : Nat → α) : Prop := ∀ p, p < N → v p = some (g p)

theorem Vals.congr {v : Mem α} {N : Nat} {g g' : Nat → α} (h : Vals v N g) (e : ∀ p, p < N → g p = g' p) : Vals v N g' :=
  fun p hp => by rw [h p hp, e p hp]

theorem Vals.set {v : Mem α} {N : Nat} {g : Nat → α} (h : Vals v N g) (k : Nat) (x : α) : Vals (v.set k x) N (Function.update g k x) := by
  intro l hl
  by_cases c : l = k
  · subst c; rw [Mem.set_same, Function.update_self]
  · rw [Mem.set_ne _ _ c, Function.update_of_ne c, h l hl]

variable [Field α] {A : Sp α} {n N : Nat} {f : Nat → Ent α} {i k p0 p1 : Nat}

/-- Structure of the matrix: compressed, square, sorted, with stored diagonal (the values are described separately). -/
structure Pat (A : Sp α) (n N : Nat) (f : Nat → Ent α) : Prop where
  comp : Compressed A.ptr A.ix A.v n n N f
  nnz : A.nnz = N
  sd : SortedDiag n N f

theorem spNz_spec (P : Pat A n N f) (hik : i < k) (hk : k < n) :
    Runs (spNz A i (pst f N (k + 1)) (A.nnz - pst f N k) (pst f N k)) (fun r => match r with
      | some p => p < N ∧ (f p).1 = k ∧ (f p).2.1 = i
      | none => ∀ p, p < N → (f p).1 = k → (f p).2.1 ≠ i) := by
  have H := P.comp
  obtain ⟨D, hDN, hD1, hD2⟩ := P.sd.diag k hk
  have hD : DiagAt N f k D := ⟨hDN, hD1, hD2⟩
  have hseg := hD.seg H
  rw [P.nnz]
  have key : ∀ g p, g = N - p → pst f N k ≤ p → p ≤ D → (∀ q, q < N → (f q).1 = k → q < p → (f q).2.1 < i) →
      Runs (spNz A i (pst f N (k + 1)) g p) (fun r => match r with
      | some p => p < N ∧ (f p).1 = k ∧ (f p).2.1 = i
      | none => ∀ p, p < N → (f p).1 = k → (f p).2.1 ≠ i) := by
    intro g
    induction g with
    | zero => intro p hg h1 h2 _; omega
    | succ g ih =>
      intro p hg h1 h2 h3
      have hp : p < N := by omega
      have hm := (H.mem_seg hp).mp ⟨h1, lt_of_le_of_lt h2 hseg.2⟩
      unfold spNz
      refine Runs.rd_bind (H.ix p hp) ?_
      by_cases c : (f p).2.1 ≤ i
      · rw [if_pos ⟨c, lt_of_le_of_lt h2 hseg.2⟩]
        by_cases c' : (f p).2.1 = i
        · rw [if_pos c']
          exact Runs.pure ⟨hp, hm, c'⟩
        · rw [if_neg c']
          have hpD : p ≠ D := by rintro rfl; omega
          refine ih (p + 1) (by omega) (by omega) (by omega) ?_
          intro q hq hqk hqp
          by_cases e : q = p
          · subst e; omega
          · exact h3 q hq hqk (by omega)
      · rw [if_neg (fun h => c h.1)]
        refine Runs.pure ?_
        intro q hq hqk
        rcases Nat.lt_trichotomy q p with e | e | e
        · exact ne_of_lt (h3 q hq hqk e)
        · subst e; omega
        · have := P.sd.strict p q e hq (by rw [hm, hqk]); omega
  refine key _ _ rfl (le_refl _) hseg.1 ?_
  intro q hq hqk hlt
  have := ((H.mem_seg hq).mpr hqk).1
  exact absurd hlt (not_lt.mpr this)

/-- The merge: the elements of row (column) `k` behind `p1` get `- g p1 * G c`, `G` being the elements of row (column) `i` behind `p0`. -/
theorem iluMerge_spec (P : Pat A n N f) (hik : i ≠ k) {v : Mem α} {g G : Nat → α} (hv : Vals v N g) (hp0 : p0 < N)
    (hp0i : (f p0).1 = i) (hp1 : p1 < N) (hp1k : (f p1).1 = k) (hG1 : ∀ u, p0 < u → u < N → (f u).1 = i → G (f u).2.1 = g u)
    (hG2 : ∀ c, (∀ u, p0 < u → u < N → (f u).1 = i → (f u).2.1 ≠ c) → (∃ q, p1 < q ∧ q < N ∧ (f q).1 = k ∧ (f q).2.1 = c) → G c = 0) :
    Runs (iluMerge A.ix p1 (pst f N (k + 1)) (pst f N (i + 1)) ((pst f N (k + 1) - (p1 + 1)) + (pst f N (i + 1) - (p0 + 1))) (p1 + 1) (p0 + 1) v)
      (fun v' => Vals v' N (fun q => if p1 < q ∧ (f q).1 = k then g q - g p1 * G (f q).2.1 else g q)) := by
  have H := P.comp
  have s0 := (H.mem_seg hp0).mpr hp0i
  have s1 := (H.mem_seg hp1).mpr hp1k
  have inK : ∀ q, p1 < q → q < pst f N (k + 1) → q < N ∧ (f q).1 = k := fun q h1 h2 => by
    have hq : q < N := lt_of_lt_of_le h2 (H.ptr_le _)
    exact ⟨hq, (H.mem_seg hq).mp ⟨le_trans s1.1 (le_of_lt h1), h2⟩⟩
  have inI : ∀ q, p0 < q → q < pst f N (i + 1) → q < N ∧ (f q).1 = i := fun q h1 h2 => by
    have hq : q < N := lt_of_lt_of_le h2 (H.ptr_le _)
    exact ⟨hq, (H.mem_seg hq).mp ⟨le_trans s0.1 (le_of_lt h1), h2⟩⟩
  have key : ∀ c p u (v : Mem α), (pst f N (k + 1) - p) + (pst f N (i + 1) - u) ≤ c → p1 < p → p0 < u →
      Vals v N (fun q => if p1 < q ∧ (f q).1 = k ∧ q < p then g q - g p1 * G (f q).2.1 else g q) →
      (∀ p' u', p ≤ p' → p' < pst f N (k + 1) → p0 < u' → u' < u → u' < N → (f u').1 = i → (f p').2.1 ≠ (f u').2.1) →
      Runs (iluMerge A.ix p1 (pst f N (k + 1)) (pst f N (i + 1)) c p u v)
        (fun v' => Vals v' N (fun q => if p1 < q ∧ (f q).1 = k then g q - g p1 * G (f q).2.1 else g q)) := by
    -- the loop is left
    have done : ∀ p u (v : Mem α), ¬ (p < pst f N (k + 1) ∧ u < pst f N (i + 1)) → p1 < p → p0 < u →
        Vals v N (fun q => if p1 < q ∧ (f q).1 = k ∧ q < p then g q - g p1 * G (f q).2.1 else g q) →
        (∀ p' u', p ≤ p' → p' < pst f N (k + 1) → p0 < u' → u' < u → u' < N → (f u').1 = i → (f p').2.1 ≠ (f u').2.1) →
        Vals v N (fun q => if p1 < q ∧ (f q).1 = k then g q - g p1 * G (f q).2.1 else g q) := by
      intro p u v hc h1 h2 hv hne
      refine hv.congr fun q hq => ?_
      by_cases c1 : p1 < q ∧ (f q).1 = k
      · rw [if_pos c1]
        by_cases c2 : q < p
        · rw [if_pos ⟨c1.1, c1.2, c2⟩]
        · rw [if_neg (fun h => c2 h.2.2)]
          have hqs := (H.mem_seg hq).mpr c1.2
          have hue : ¬ u < pst f N (i + 1) := fun h => hc ⟨lt_of_le_of_lt (by omega) hqs.2, h⟩
          rw [hG2 (f q).2.1 (fun u' a b c => ?_) ⟨q, c1.1, hq, c1.2, rfl⟩]
          · ring
          · have hus := (H.mem_seg b).mpr c
            exact (hne q u' (by omega) hqs.2 a (lt_of_lt_of_le hus.2 (not_lt.mp hue)) b c).symm
      · rw [if_neg c1, if_neg (fun h => c1 ⟨h.1, h.2.1⟩)]
    intro c
    induction c with
    | zero =>
      intro p u v hc h1 h2 hv hne
      unfold iluMerge
      exact Runs.pure (done p u v (by omega) h1 h2 hv hne)
    | succ c ih =>
      intro p u v hc h1 h2 hv hne
      unfold iluMerge
      by_cases cc : p < pst f N (k + 1) ∧ u < pst f N (i + 1)
      · rw [if_pos cc]
        obtain ⟨hpN, hpk⟩ := inK p h1 cc.1
        obtain ⟨huN, hui⟩ := inI u h2 cc.2
        refine Runs.rd_bind (H.ix p hpN) (Runs.rd_bind (H.ix u huN) ?_)
        have asc : ∀ p', p < p' → p' < pst f N (k + 1) → (f p).2.1 < (f p').2.1 := fun p' a b => by
          obtain ⟨e1, e2⟩ := inK p' (by omega) b
          exact P.sd.strict p p' a e1 (by rw [hpk, e2])
        have ascu : ∀ u', u < u' → u' < N → (f u').1 = i → (f u).2.1 < (f u').2.1 := fun u' a b c =>
          P.sd.strict u u' a b (by rw [hui, c])
        by_cases c1 : (f p).2.1 = (f u).2.1
        · rw [if_pos c1]
          refine Runs.rd_bind (hv p hpN) (Runs.rd_bind (hv p1 hp1) (Runs.rd_bind (hv u huN) (Runs.wr_bind (hv p hpN) ?_)))
          refine ih (p + 1) (u + 1) _ (by omega) (by omega) (by omega) ((hv.set p _).congr fun q hq => ?_) ?_
          · by_cases e : q = p
            · subst e
              rw [Function.update_self]
              beta_reduce
              rw [if_neg (c := p1 < q ∧ _ ∧ q < q) (by omega), if_neg (c := p1 < p1 ∧ _) (by omega), if_neg (c := p1 < u ∧ _) (by rw [hui]; rintro ⟨-, h, -⟩; exact hik h),
                if_pos ⟨h1, hpk, by omega⟩, c1, hG1 u h2 huN hui]
            · rw [Function.update_of_ne e]
              by_cases e2 : p1 < q ∧ (f q).1 = k ∧ q < p
              · rw [if_pos e2, if_pos ⟨e2.1, e2.2.1, by omega⟩]
              · rw [if_neg e2, if_neg (fun h => e2 ⟨h.1, h.2.1, by omega⟩)]
          · intro p' u' a b c' d' e' f' heq
            by_cases e2 : u' = u
            · subst e2; have := asc p' (by omega) b; omega
            · exact hne p' u' (by omega) b c' (by omega) e' f' heq
        · rw [if_neg c1]
          by_cases c2 : (f p).2.1 < (f u).2.1
          · rw [if_pos c2]
            refine ih (p + 1) u v (by omega) (by omega) h2 (hv.congr fun q hq => ?_) (fun p' u' a b c' d' e' f' =>
              hne p' u' (by omega) b c' d' e' f')
            by_cases e : q = p
            · subst e
              rw [if_neg (by omega), if_pos ⟨h1, hpk, by omega⟩, hG2 (f q).2.1 (fun u' a b c' => ?_) ⟨q, h1, hq, hpk, rfl⟩]
              · ring
              · rcases Nat.lt_trichotomy u' u with e | e | e
                · exact (hne q u' (le_refl _) cc.1 a e b c').symm
                · subst e; omega
                · have := ascu u' e b c'; omega
            · by_cases e2 : p1 < q ∧ (f q).1 = k ∧ q < p
              · rw [if_pos e2, if_pos ⟨e2.1, e2.2.1, by omega⟩]
              · rw [if_neg e2, if_neg (fun h => e2 ⟨h.1, h.2.1, by omega⟩)]
          · rw [if_neg c2]
            refine ih p (u + 1) v (by omega) h1 (by omega) hv (fun p' u' a b c' d' e' f' heq => ?_)
            by_cases e2 : u' = u
            · subst e2
              by_cases e3 : p' = p
              · subst e3; exact c1 heq
              · have := asc p' (by omega) b; omega
            · exact hne p' u' a b c' (by omega) e' f' heq
      · rw [if_neg cc]
        exact Runs.pure (done p u v cc h1 h2 hv hne)
  refine key _ (p1 + 1) (p0 + 1) v (le_refl _) (by omega) (by omega) (hv.congr fun q hq => ?_) ?_
  · rw [if_neg (by omega)]
  · intro p' u' _ _ a b; omega


/-! ## The elimination -/

/-- One elimination step restricted to the pattern `S`. -/
noncomputable def iluStep (S : Nat → Nat → Prop) (E : Nat → Nat → α) (i r c : Nat) : α :=
  if ¬ S r c then 0
  else if i < r then (if c = i then E r i / E i i else if i < c then E r c - E r i / E i i * E i c else E r c)
  else E r c

/-- `i` elimination steps. -/
noncomputable def iluSeq (S : Nat → Nat → Prop) (a : Nat → Nat → α) : Nat → Nat → Nat → α
  | 0 => a
  | i + 1 => iluStep S (iluSeq S a i) i

section Elim

variable {S : Nat → Nat → Prop} {a E : Nat → Nat → α}

theorem iluStep_zero {r c : Nat} (h : ¬ S r c) : iluStep S E i r c = 0 := by unfold iluStep; rw [if_pos h]

theorem iluStep_keep (hz : ∀ r c, ¬ S r c → E r c = 0) {r c : Nat} (h : r ≤ i ∨ c < i) : iluStep S E i r c = E r c := by
  unfold iluStep
  by_cases hs : S r c
  · rw [if_neg (not_not.mpr hs)]
    by_cases h1 : i < r
    · rw [if_pos h1, if_neg (by omega), if_neg (by omega)]
    · rw [if_neg h1]
  · rw [if_pos hs, hz r c hs]

theorem iluStep_col (hz : ∀ r c, ¬ S r c → E r c = 0) {r : Nat} (h : i < r) : iluStep S E i r i = E r i / E i i := by
  unfold iluStep
  by_cases hs : S r i
  · rw [if_neg (not_not.mpr hs), if_pos h, if_pos rfl]
  · rw [if_pos hs, hz r i hs, zero_div]

theorem iluStep_in {r c : Nat} (hs : S r c) (h : i < r) (h' : i < c) : iluStep S E i r c = E r c - E r i / E i i * E i c := by
  unfold iluStep
  rw [if_neg (not_not.mpr hs), if_pos h, if_neg (by omega), if_pos h']

theorem iluSeq_zero (hz : ∀ r c, ¬ S r c → a r c = 0) : ∀ t r c, ¬ S r c → iluSeq S a t r c = 0
  | 0, r, c, h => hz r c h
  | _ + 1, _, _, h => iluStep_zero h

theorem iluSeq_keep (hz : ∀ r c, ¬ S r c → a r c = 0) {r c : Nat} (h : r ≤ i ∨ c < i) {t : Nat} (ht : i ≤ t) :
    iluSeq S a t r c = iluSeq S a i r c := by
  induction t, ht using Nat.le_induction with
  | base => rfl
  | succ t ht ih =>
    rw [← ih]
    exact iluStep_keep (iluSeq_zero hz t) (by omega)

theorem iluSeq_inv (hz : ∀ r c, ¬ S r c → a r c = 0) : ∀ i, (∀ j, j < i → iluSeq S a j j j ≠ 0) → ∀ r c, S r c →
    a r c = ∑ t ∈ range (min (min r c) i), iluSeq S a i r t * iluSeq S a i t c +
      (if c < r ∧ c < i then iluSeq S a i r c * iluSeq S a i c c else iluSeq S a i r c) := by
  intro i
  induction i with
  | zero => intro _ r c _; simp [iluSeq]
  | succ i ih =>
    intro hp r c hs
    have hi := ih (fun j hj => hp j (by omega)) r c hs
    have hzi := iluSeq_zero hz i
    have hsum : ∀ t, t < min (min r c) i → iluSeq S a (i + 1) r t * iluSeq S a (i + 1) t c = iluSeq S a i r t * iluSeq S a i t c := by
      intro t ht
      rw [show iluSeq S a (i + 1) r t = iluSeq S a i r t from iluStep_keep hzi (by omega),
        show iluSeq S a (i + 1) t c = iluSeq S a i t c from iluStep_keep hzi (by omega)]
    by_cases h1 : r ≤ i ∨ c < i
    · have e1 : min (min r c) (i + 1) = min (min r c) i := by omega
      rw [e1, sum_congr rfl (fun t ht => hsum t (mem_range.mp ht)), show iluSeq S a (i + 1) r c = iluSeq S a i r c from iluStep_keep hzi h1]
      refine hi.trans ?_
      congr 1
      by_cases h2 : c < r ∧ c < i
      · rw [if_pos h2, if_pos ⟨h2.1, by omega⟩, show iluSeq S a (i + 1) c c = iluSeq S a i c c from iluStep_keep hzi (by omega)]
      · rw [if_neg h2, if_neg (by omega)]
    · by_cases h2 : c = i
      · subst h2
        have e1 : min (min r c) (c + 1) = min (min r c) c := by omega
        rw [e1, sum_congr rfl (fun t ht => hsum t (mem_range.mp ht)), if_pos ⟨by omega, by omega⟩,
          show iluSeq S a (c + 1) r c = iluSeq S a c r c / iluSeq S a c c c from iluStep_col hzi (by omega),
          show iluSeq S a (c + 1) c c = iluSeq S a c c c from iluStep_keep hzi (by omega), div_mul_cancel₀ _ (hp c (by omega))]
        rw [if_neg (by omega)] at hi
        exact hi
      · have e1 : min (min r c) (i + 1) = i + 1 := by omega
        have e2 : min (min r c) i = i := by omega
        rw [e1, sum_range_succ, if_neg (by omega)]
        rw [e2] at hi hsum
        rw [if_neg (by omega)] at hi
        rw [sum_congr rfl (fun t ht => hsum t (mem_range.mp ht)),
          show iluSeq S a (i + 1) r i = iluSeq S a i r i / iluSeq S a i i i from iluStep_col hzi (by omega),
          show iluSeq S a (i + 1) i c = iluSeq S a i i c from iluStep_keep hzi (by omega),
          show iluSeq S a (i + 1) r c = _ from iluStep_in hs (by omega) (by omega), hi]
        ring

/-- The factors reproduce the matrix on its pattern. -/
theorem iluSeq_factor (hz : ∀ r c, ¬ S r c → a r c = 0) (hp : ∀ j, j < n → iluSeq S a n j j ≠ 0) {r c : Nat} (hs : S r c) (hr : r < n) (hc : c < n) :
    ∑ k ∈ range n, triOf false true (iluSeq S a n) r k * triOf true false (iluSeq S a n) k c = a r c := by
  rw [iluSeq_inv hz n (fun j hj => by rw [← iluSeq_keep hz (Or.inl (le_refl j)) (le_of_lt hj)]; exact hp j hj) r c hs,
    show min (min r c) n = min r c by omega]
  have key : ∀ k, k ∈ range n → triOf false true (iluSeq S a n) r k * triOf true false (iluSeq S a n) k c =
      (if k < min r c then iluSeq S a n r k * iluSeq S a n k c else 0) +
      (if k = min r c then (if c < r then iluSeq S a n r c * iluSeq S a n c c else iluSeq S a n r c) else 0) := by
    intro k hk
    have hL : triOf false true (iluSeq S a n) r k = if k < r then iluSeq S a n r k else if k = r then 1 else 0 := by
      unfold triOf
      rcases Nat.lt_trichotomy k r with h | h | h
      · simp [h, show ¬ r = k by omega]
      · simp [h]
      · simp [show ¬ k < r by omega, show ¬ r = k by omega, show ¬ k = r by omega]
    have hU : triOf true false (iluSeq S a n) k c = if k ≤ c then iluSeq S a n k c else 0 := by
      unfold triOf
      rcases Nat.lt_trichotomy k c with h | h | h
      · simp [h, le_of_lt h]
      · simp [h]
      · simp [show ¬ k ≤ c by omega, show ¬ k < c by omega, show ¬ k = c by omega]
    rw [hL, hU]
    by_cases h2 : c < r
    · rw [min_eq_right (le_of_lt h2), if_pos h2]
      rcases Nat.lt_trichotomy k c with h | h | h
      · simp [h, le_of_lt h, show k < r by omega, show ¬ k = c by omega]
      · subst h; simp [h2]
      · simp [show ¬ k ≤ c by omega, show ¬ k < c by omega, show ¬ k = c by omega]
    · rw [min_eq_left (not_lt.mp h2), if_neg h2]
      rcases Nat.lt_trichotomy k r with h | h | h
      · simp [h, show k ≤ c by omega, show ¬ k = r by omega]
      · subst h; simp [not_lt.mp h2]
      · simp [show ¬ k < r by omega, show ¬ k = r by omega]
  rw [sum_congr rfl key, sum_add_distrib, sum_ite_eq' (range n), if_pos (mem_range.mpr (by omega)), ← sum_filter]
  congr 1
  · refine sum_congr ?_ fun _ _ => rfl
    ext k
    simp only [mem_filter, mem_range]
    omega
  · by_cases h : c < r
    · rw [if_pos h, if_pos ⟨h, hc⟩]
    · rw [if_neg h, if_neg (fun x => h x.1)]

end Elim

/-! ## The row version -/

/-- Some element is stored at `r`, `c`. -/
def Stored (N : Nat) (f : Nat → Ent α) (r c : Nat) : Prop := ∃ p, p < N ∧ (f p).1 = r ∧ (f p).2.1 = c

theorem Pat.uniq (P : Pat A n N f) {p q : Nat} (hp : p < N) (hq : q < N) (h1 : (f p).1 = (f q).1) (h2 : (f p).2.1 = (f q).2.1) : p = q := by
  rcases Nat.lt_trichotomy p q with c | c | c
  · have := P.sd.strict p q c hq h1; omega
  · exact c
  · have := P.sd.strict q p c hp h1.symm; omega

theorem csrIluRow_spec (P : Pat A n N f) (hik : i < k) (hk : k < n) (hD : DiagAt N f i p0) {E : Nat → Nat → α}
    (hz : ∀ r c, ¬ Stored N f r c → E r c = 0) {v : Mem α}
    (hv : Vals v N (fun q => if (f q).1 < k then iluStep (Stored N f) E i (f q).1 (f q).2.1 else E (f q).1 (f q).2.1)) :
    Runs (csrIluRow A i p0 (E i i) k v) (fun v' =>
      Vals v' N (fun q => if (f q).1 < k + 1 then iluStep (Stored N f) E i (f q).1 (f q).2.1 else E (f q).1 (f q).2.1)) := by
  have H := P.comp
  unfold csrIluRow
  refine Runs.rd_bind (H.ptr k (by omega)) (Runs.rd_bind (H.ptr (k + 1) (by omega)) ?_)
  refine Runs.bind (spNz_spec P hik hk) fun r hr => ?_
  cases r with
  | none =>
    refine Runs.pure (hv.congr fun q hq => ?_)
    by_cases c : (f q).1 = k
    · rw [if_neg (by omega), if_pos (by omega)]
      have hs : Stored N f (f q).1 (f q).2.1 := ⟨q, hq, rfl, rfl⟩
      have h0 : E (f q).1 i = 0 := hz _ _ (by rintro ⟨p, h1, h2, h3⟩; exact hr p h1 (by omega) h3)
      by_cases c2 : (f q).2.1 < i
      · exact (iluStep_keep hz (Or.inr c2)).symm
      · have := hr q hq c
        rw [iluStep_in hs (by omega) (by omega), h0]; ring
    · by_cases c2 : (f q).1 < k
      · rw [if_pos c2, if_pos (by omega)]
      · rw [if_neg c2, if_neg (by omega)]
  | some p1 =>
    obtain ⟨hp1, hp1k, hp1i⟩ := hr
    refine Runs.rd_bind (hv p1 hp1) (Runs.wr_bind (hv p1 hp1) (Runs.rd_bind (H.ptr (i + 1) (by omega)) ?_))
    have hne : ∀ q, q < N → p1 < q → (f q).1 = k → i < (f q).2.1 := fun q hq h1 h2 => by
      have := P.sd.strict p1 q h1 hq (by omega); omega
    have hlt : ∀ q, q < N → q < p1 → (f q).1 = k → (f q).2.1 < i := fun q hq h1 h2 => by
      have := P.sd.strict q p1 h1 hp1 (by omega); omega
    refine (iluMerge_spec P (by omega) (hv.set p1 _) hD.lt hD.maj hp1 hp1k (G := E i) ?_ ?_).mono fun v' hv' => hv'.congr fun q hq => ?_
    · intro u hu hu1 hu2
      rw [Function.update_of_ne (by rintro rfl; omega), if_pos (by omega), iluStep_keep hz (by omega), hu2]
    · intro c hc ⟨q, hq1, hq2, hq3, hq4⟩
      refine hz _ _ ?_
      rintro ⟨u, hu1, hu2, hu3⟩
      have := hne q hq2 hq1 hq3
      exact hc u ((hD.above P.sd hu1 hu2).mpr (by omega)) hu1 hu2 hu3
    · rw [Function.update_self]
      beta_reduce
      rw [if_neg (c := (f p1).1 < k) (by omega), hp1k, hp1i]
      by_cases c1 : p1 < q ∧ (f q).1 = k
      · rw [if_pos c1, Function.update_of_ne (by omega), if_neg (by omega), if_pos (by omega), c1.2,
          iluStep_in ⟨q, hq, c1.2, rfl⟩ hik (hne q hq c1.1 c1.2)]
      · rw [if_neg c1]
        by_cases c2 : q = p1
        · subst c2
          rw [Function.update_self, if_pos (by omega), hp1k, hp1i, iluStep_col hz hik]
        · rw [Function.update_of_ne c2]
          by_cases c3 : (f q).1 = k
          · rw [if_neg (by omega), if_pos (by omega), iluStep_keep hz (Or.inr (hlt q hq (by omega) c3))]
          · by_cases c4 : (f q).1 < k
            · rw [if_pos c4, if_pos (by omega)]
            · rw [if_neg c4, if_neg (by omega)]

theorem csrIluz_spec (P : Pat A n N f) (hr : A.rows = n) {a : Nat → Nat → α} (hz : ∀ r c, ¬ Stored N f r c → a r c = 0)
    (hv : Vals A.v N (fun q => a (f q).1 (f q).2.1)) :
    Runs (csrIluz A) (fun M => ∃ v', M = { A with v := v' } ∧ Vals v' N (fun q => iluSeq (Stored N f) a n (f q).1 (f q).2.1)) := by
  have H := P.comp
  unfold csrIluz
  rw [hr]
  refine Runs.bind (P := fun r => Vals r.2 N (fun q => iluSeq (Stored N f) a n (f q).1 (f q).2.1)) ?_ fun r h => Runs.pure ⟨_, rfl, h⟩
  refine Runs.forUp1 (I := fun i v => Vals v N (fun q => iluSeq (Stored N f) a i (f q).1 (f q).2.1)) (Nat.zero_le n) hv ?_ (fun v h => h)
  intro i v _ hi hv
  obtain ⟨D, hD1, hD2, hD3⟩ := P.sd.diag i hi
  have hD : DiagAt N f i D := ⟨hD1, hD2, hD3⟩
  have hzi := iluSeq_zero hz i
  have hseg := hD.seg H
  refine Runs.rd_bind (H.ptr i (by omega)) ?_
  rw [P.nnz]
  refine Runs.bind (P := fun x => x = D) ⟨D, skipUp_spec H P.sd hD (le_refl _) hseg.1 (Nat.sub_lt_sub_right hseg.1 hD1), rfl⟩ fun p0 hp0 => ?_
  subst hp0
  refine Runs.rd_bind (H.ix _ hD1) ?_
  rw [if_neg (by rw [hD3]; simp)]
  refine Runs.rd_bind (hv _ hD1) ?_
  beta_reduce
  rw [hD2, hD3]
  refine Runs.bind (P := fun r => Vals r.2 N (fun q => iluSeq (Stored N f) a (i + 1) (f q).1 (f q).2.1)) ?_ fun r h => Runs.pure h
  refine Runs.forUp1 (I := fun k v => Vals v N (fun q => if (f q).1 < k then iluStep (Stored N f) (iluSeq (Stored N f) a i) i (f q).1 (f q).2.1
    else iluSeq (Stored N f) a i (f q).1 (f q).2.1)) (by omega) (hv.congr fun q hq => ?_)
    (fun k v h1 h2 h3 => csrIluRow_spec P (by omega) h2 hD hzi h3) (fun v h => h.congr fun q hq => ?_)
  · by_cases c : (f q).1 < i + 1
    · rw [if_pos c, iluStep_keep hzi (by omega)]
    · rw [if_neg c]
  · rw [if_pos (H.major q hq)]; rfl

/-! ## The column version -/

theorem cscIluCol_spec (P : Pat A n N f) (hik : i < k) (hk : k < n) (hD : DiagAt N f i p0) {E : Nat → Nat → α}
    (hz : ∀ r c, ¬ Stored N f c r → E r c = 0) {v : Mem α}
    (hv : Vals v N (fun q => if (f q).1 < k then iluStep (fun r c => Stored N f c r) E i (f q).2.1 (f q).1 else E (f q).2.1 (f q).1)) :
    Runs (cscIluCol A i p0 k v) (fun v' =>
      Vals v' N (fun q => if (f q).1 < k + 1 then iluStep (fun r c => Stored N f c r) E i (f q).2.1 (f q).1 else E (f q).2.1 (f q).1)) := by
  have H := P.comp
  unfold cscIluCol
  refine Runs.rd_bind (H.ptr k (by omega)) (Runs.rd_bind (H.ptr (k + 1) (by omega)) ?_)
  refine Runs.bind (spNz_spec P hik hk) fun r hr => ?_
  cases r with
  | none =>
    refine Runs.pure (hv.congr fun q hq => ?_)
    by_cases c : (f q).1 = k
    · rw [if_neg (by omega), if_pos (by omega)]
      have hs : Stored N f (f q).1 (f q).2.1 := ⟨q, hq, rfl, rfl⟩
      have h0 : E i (f q).1 = 0 := hz _ _ (by rintro ⟨p, h1, h2, h3⟩; exact hr p h1 (by omega) h3)
      by_cases c2 : (f q).2.1 < i
      · exact (iluStep_keep (S := fun r c => Stored N f c r) hz (Or.inl (by omega))).symm
      · have := hr q hq c
        rw [iluStep_in (S := fun r c => Stored N f c r) hs (by omega) (by omega), h0]; ring
    · by_cases c2 : (f q).1 < k
      · rw [if_pos c2, if_pos (by omega)]
      · rw [if_neg c2, if_neg (by omega)]
  | some p1 =>
    obtain ⟨hp1, hp1k, hp1i⟩ := hr
    refine Runs.rd_bind (H.ptr (i + 1) (by omega)) ?_
    have hne : ∀ q, q < N → p1 < q → (f q).1 = k → i < (f q).2.1 := fun q hq h1 h2 => by
      have := P.sd.strict p1 q h1 hq (by omega); omega
    have hlt : ∀ q, q < N → ¬ p1 < q → (f q).1 = k → (f q).2.1 ≤ i := fun q hq h1 h2 => by
      by_cases e : q = p1
      · subst e; omega
      · have := P.sd.strict q p1 (by omega) hp1 (by omega); omega
    refine (iluMerge_spec P (by omega) hv hD.lt hD.maj hp1 hp1k (G := fun r => iluStep (fun r c => Stored N f c r) E i r i) ?_ ?_).mono
      fun v' hv' => hv'.congr fun q hq => ?_
    · intro u hu hu1 hu2
      beta_reduce
      rw [if_pos (by omega), hu2]
    · intro c hc ⟨q, hq1, hq2, hq3, hq4⟩
      refine iluStep_zero ?_
      rintro ⟨u, hu1, hu2, hu3⟩
      have := hne q hq2 hq1 hq3
      exact hc u ((hD.above P.sd hu1 hu2).mpr (by omega)) hu1 hu2 hu3
    · beta_reduce
      rw [if_neg (c := (f p1).1 < k) (by omega), hp1k, hp1i]
      by_cases c1 : p1 < q ∧ (f q).1 = k
      · have := hne q hq c1.1 c1.2
        rw [if_pos c1, if_neg (by omega), if_pos (by omega), c1.2,
          iluStep_in (S := fun r c => Stored N f c r) ⟨q, hq, c1.2, rfl⟩ this hik, iluStep_col (S := fun r c => Stored N f c r) hz this]
        ring
      · rw [if_neg c1]
        by_cases c3 : (f q).1 = k
        · rw [if_neg (by omega), if_pos (by omega),
            iluStep_keep (S := fun r c => Stored N f c r) hz (Or.inl (hlt q hq (fun h => c1 ⟨h, c3⟩) c3))]
        · by_cases c4 : (f q).1 < k
          · rw [if_pos c4, if_pos (by omega)]
          · rw [if_neg c4, if_neg (by omega)]

theorem cscIluz_spec (P : Pat A n N f) (hr : A.cols = n) {a : Nat → Nat → α} (hz : ∀ r c, ¬ Stored N f c r → a r c = 0)
    (hv : Vals A.v N (fun q => a (f q).2.1 (f q).1)) :
    Runs (cscIluz A) (fun M => ∃ v', M = { A with v := v' } ∧ Vals v' N (fun q => iluSeq (fun r c => Stored N f c r) a n (f q).2.1 (f q).1)) := by
  have H := P.comp
  unfold cscIluz
  rw [hr]
  refine Runs.bind (P := fun r => Vals r.2 N (fun q => iluSeq (fun r c => Stored N f c r) a n (f q).2.1 (f q).1)) ?_ fun r h => Runs.pure ⟨_, rfl, h⟩
  refine Runs.forUp1 (I := fun i v => Vals v N (fun q => iluSeq (fun r c => Stored N f c r) a i (f q).2.1 (f q).1)) (Nat.zero_le n) hv ?_ (fun v h => h)
  intro i v _ hi hv
  obtain ⟨D, hD1, hD2, hD3⟩ := P.sd.diag i hi
  have hD : DiagAt N f i D := ⟨hD1, hD2, hD3⟩
  have hzi := iluSeq_zero (S := fun r c => Stored N f c r) hz i
  have hseg := hD.seg H
  refine Runs.rd_bind (H.ptr i (by omega)) ?_
  rw [P.nnz]
  refine Runs.bind (P := fun x => x = D) ⟨D, skipUp_spec H P.sd hD (le_refl _) hseg.1 (Nat.sub_lt_sub_right hseg.1 hD1), rfl⟩ fun p0 hp0 => ?_
  subst hp0
  refine Runs.rd_bind (H.ix _ hD1) ?_
  rw [if_neg (by rw [hD3]; simp)]
  refine Runs.rd_bind (hv _ hD1) (Runs.rd_bind (H.ptr (i + 1) (by omega)) ?_)
  beta_reduce
  rw [hD2, hD3]
  set E := iluSeq (fun r c => Stored N f c r) a i with hE
  refine Runs.bind (P := fun r => Vals r.2 N (fun q => if p0 < q ∧ (f q).1 = i then E (f q).2.1 (f q).1 / E i i else E (f q).2.1 (f q).1)) ?_ fun r h1 => ?_
  · refine Runs.forUp1 (I := fun p v => Vals v N (fun q => if p0 < q ∧ (f q).1 = i ∧ q < p then E (f q).2.1 (f q).1 / E i i else E (f q).2.1 (f q).1))
      hseg.2 (hv.congr fun q hq => by rw [if_neg (by omega)]) ?_ (fun v h => h.congr fun q hq => ?_)
    · intro p v h1 h2 h3
      have hp : p < N := lt_of_lt_of_le h2 (H.ptr_le _)
      have hpi : (f p).1 = i := (H.mem_seg hp).mp ⟨le_trans hseg.1 (by omega), h2⟩
      refine Runs.rd_bind (h3 p hp) (Runs.wr (h3 p hp) ((h3.set p _).congr fun q hq => ?_))
      by_cases e : q = p
      · subst e
        rw [Function.update_self]
        beta_reduce
        rw [if_neg (c := p0 < q ∧ _ ∧ q < q) (by omega), if_pos ⟨by omega, hpi, by omega⟩]
      · rw [Function.update_of_ne e]
        by_cases e2 : p0 < q ∧ (f q).1 = i ∧ q < p
        · rw [if_pos e2, if_pos ⟨e2.1, e2.2.1, by omega⟩]
        · rw [if_neg e2, if_neg (fun h => e2 ⟨h.1, h.2.1, by omega⟩)]
    · by_cases e2 : p0 < q ∧ (f q).1 = i
      · rw [if_pos e2, if_pos ⟨e2.1, e2.2, ((H.mem_seg hq).mpr e2.2).2⟩]
      · rw [if_neg e2, if_neg (fun h => e2 ⟨h.1, h.2.1⟩)]
  refine Runs.bind (P := fun r => Vals r.2 N (fun q => iluSeq (fun r c => Stored N f c r) a (i + 1) (f q).2.1 (f q).1)) ?_ fun r h => Runs.pure h
  refine Runs.forUp1 (I := fun k v => Vals v N (fun q => if (f q).1 < k then iluStep (fun r c => Stored N f c r) E i (f q).2.1 (f q).1
    else E (f q).2.1 (f q).1)) (by omega) (h1.congr fun q hq => ?_)
    (fun k v h1 h2 h3 => cscIluCol_spec P (by omega) h2 hD hzi h3) (fun v h => h.congr fun q hq => ?_)
  · by_cases c : (f q).1 = i
    · rw [if_pos (c := _ < i + 1) (by omega)]
      by_cases c2 : p0 < q
      · rw [if_pos ⟨c2, c⟩, c, iluStep_col (S := fun r c => Stored N f c r) hzi ((hD.above P.sd hq c).mp c2)]
      · rw [if_neg (fun h => c2 h.1), iluStep_keep (S := fun r c => Stored N f c r) hzi (Or.inl ?_)]
        have := mt (hD.above P.sd hq c).mpr c2
        omega
    · rw [if_neg (fun h => c h.2)]
      by_cases c2 : (f q).1 < i + 1
      · rw [if_pos c2, iluStep_keep (S := fun r c => Stored N f c r) hzi (by omega)]
      · rw [if_neg c2]
  · rw [if_pos (H.major q hq)]; rfl

end Armas
