import Verif.SparseIchol
import Verif.SparseIlu

/-!
# Lemmas: incomplete Cholesky factorization
-/

namespace Armas

open Finset Classical

variable {α : Type} [Field α]

/-! ## The elimination -/

/-- One elimination step on the upper triangle, restricted to the pattern `S`. -/
noncomputable def icStep (sq : α → α) (S : Nat → Nat → Prop) (E : Nat → Nat → α) (i a b : Nat) : α :=
  if ¬ S a b then 0
  else if a = i then (if b = i then sq (E i i) else E i b / sq (E i i))
  else if i < a then E a b - E i a / sq (E i i) * (E i b / sq (E i i))
  else E a b

/-- `i` elimination steps. -/
noncomputable def icSeq (sq : α → α) (S : Nat → Nat → Prop) (E : Nat → Nat → α) : Nat → Nat → Nat → α
  | 0 => E
  | i + 1 => icStep sq S (icSeq sq S E i) i

section Elim

variable {sq : α → α} {S : Nat → Nat → Prop} {E : Nat → Nat → α} {i a b n : Nat}

theorem icStep_zero (h : ¬ S a b) : icStep sq S E i a b = 0 := by unfold icStep; rw [if_pos h]

theorem icStep_keep (hz : ∀ a b, ¬ S a b → E a b = 0) (h : a < i) : icStep sq S E i a b = E a b := by
  unfold icStep
  by_cases hs : S a b
  · rw [if_neg (not_not.mpr hs), if_neg (by omega), if_neg (by omega)]
  · rw [if_pos hs, hz _ _ hs]

theorem icStep_diag (hs : S i i) : icStep sq S E i i i = sq (E i i) := by
  unfold icStep
  rw [if_neg (not_not.mpr hs), if_pos rfl, if_pos rfl]

theorem icStep_row (hz : ∀ a b, ¬ S a b → E a b = 0) (h : i < b) : icStep sq S E i i b = E i b / sq (E i i) := by
  unfold icStep
  by_cases hs : S i b
  · rw [if_neg (not_not.mpr hs), if_pos rfl, if_neg (by omega)]
  · rw [if_pos hs, hz _ _ hs, zero_div]

theorem icStep_in (hs : S a b) (h : i < a) : icStep sq S E i a b = E a b - E i a / sq (E i i) * (E i b / sq (E i i)) := by
  unfold icStep
  rw [if_neg (not_not.mpr hs), if_neg (by omega), if_pos h]

theorem icStep_in0 (hz : ∀ a b, ¬ S a b → E a b = 0) (h : i < a) (h0 : E i a = 0 ∨ E i b = 0) : icStep sq S E i a b = E a b := by
  by_cases hs : S a b
  · rw [icStep_in hs h]
    rcases h0 with h0 | h0 <;> rw [h0] <;> simp
  · rw [icStep_zero hs, hz _ _ hs]

theorem icSeq_zero (hz : ∀ a b, ¬ S a b → E a b = 0) : ∀ t a b, ¬ S a b → icSeq sq S E t a b = 0
  | 0, a, b, h => hz a b h
  | _ + 1, _, _, h => icStep_zero h

theorem icSeq_keep (hz : ∀ a b, ¬ S a b → E a b = 0) (h : a < i) {t : Nat} (ht : i ≤ t) : icSeq sq S E t a b = icSeq sq S E i a b := by
  induction t, ht using Nat.le_induction with
  | base => rfl
  | succ t ht ih =>
    rw [← ih]
    exact icStep_keep (icSeq_zero hz t) (by omega)

theorem icSeq_inv (hz : ∀ a b, ¬ S a b → E a b = 0) (hd : ∀ i, i < n → S i i) : ∀ i, i ≤ n →
    (∀ j, j < i → sq (icSeq sq S E j j j) ≠ 0 ∧ sq (icSeq sq S E j j j) * sq (icSeq sq S E j j j) = icSeq sq S E j j j) →
    ∀ a b, a ≤ b → S a b → E a b = ∑ t ∈ range (min a i), icSeq sq S E i t a * icSeq sq S E i t b +
      (if a < i then icSeq sq S E i a a * icSeq sq S E i a b else icSeq sq S E i a b) := by
  intro i
  induction i with
  | zero => intro _ _ a b _ _; simp [icSeq]
  | succ i ih =>
    intro hn hp a b hab hs
    have h := ih (by omega) (fun j hj => hp j (by omega)) a b hab hs
    have hzi := icSeq_zero (sq := sq) hz i
    have hk : ∀ t c, t < i → icSeq sq S E (i + 1) t c = icSeq sq S E i t c := fun t c ht => icStep_keep hzi ht
    have hsum : ∑ t ∈ range (min a i), icSeq sq S E (i + 1) t a * icSeq sq S E (i + 1) t b =
        ∑ t ∈ range (min a i), icSeq sq S E i t a * icSeq sq S E i t b := by
      refine sum_congr rfl fun t ht => ?_
      have := mem_range.mp ht
      rw [hk t a (by omega), hk t b (by omega)]
    rcases Nat.lt_trichotomy a i with c | c | c
    · rw [show min a (i + 1) = min a i by omega, hsum, if_pos (by omega), hk a a c, hk a b c]
      rw [if_pos c] at h
      exact h
    · subst c
      rw [show min a (a + 1) = min a a by omega, hsum, if_pos (by omega)]
      rw [if_neg (by omega)] at h
      obtain ⟨h1, h2⟩ := hp a (by omega)
      have e1 : icSeq sq S E (a + 1) a a = sq (icSeq sq S E a a a) := icStep_diag (hd a (by omega))
      rw [h, e1]
      congr 1
      by_cases c : a = b
      · subst c; rw [e1, h2]
      · rw [show icSeq sq S E (a + 1) a b = icSeq sq S E a a b / sq (icSeq sq S E a a a) from icStep_row hzi (by omega)]
        field_simp
    · rw [show min a (i + 1) = i + 1 by omega, sum_range_succ, if_neg (by omega)]
      rw [show min a i = i by omega] at hsum h
      rw [if_neg (by omega)] at h
      rw [hsum, h, show icSeq sq S E (i + 1) i a = _ from icStep_row hzi c, show icSeq sq S E (i + 1) i b = _ from icStep_row hzi (by omega),
        show icSeq sq S E (i + 1) a b = _ from icStep_in hs c]
      ring

/-- The factor reproduces the triangle on the pattern. -/
theorem icSeq_factor (hz : ∀ a b, ¬ S a b → E a b = 0) (hd : ∀ i, i < n → S i i) (hS : ∀ a b, S a b → a ≤ b)
    (hsq : ∀ x, sq x ≠ 0 → sq x * sq x = x) (hp : ∀ j, j < n → icSeq sq S E n j j ≠ 0) (ha : a < n) (hs : S a b) :
    ∑ t ∈ range n, icSeq sq S E n t a * icSeq sq S E n t b = E a b := by
  have hp' : ∀ j, j < n → sq (icSeq sq S E j j j) ≠ 0 := fun j hj => by
    have := hp j hj
    rw [icSeq_keep hz (Nat.lt_succ_self j) hj] at this
    rwa [show icSeq sq S E (j + 1) j j = sq (icSeq sq S E j j j) from icStep_diag (hd j hj)] at this
  rw [icSeq_inv hz hd n (le_refl n) (fun j hj => ⟨hp' j hj, hsq _ (hp' j hj)⟩) a b (hS a b hs) hs, if_pos ha, min_eq_left (le_of_lt ha),
    ← sum_range_succ (f := fun t => icSeq sq S E n t a * icSeq sq S E n t b)]
  refine (sum_subset (range_subset_range.mpr ha) fun t _ ht => ?_).symm
  rw [icSeq_zero hz n t a (fun h => ?_), zero_mul]
  have := hS t a h
  exact ht (mem_range.mpr (by omega))

end Elim

variable {A : Sp α} {n N : Nat} {f : Nat → Ent α} {i k p0 p1 : Nat} {sq : α → α}

/-! ## Row by row: `csr_illtz_lower`, `csc_illtz_upper` -/

/-- The stored elements of the triangle, for the row version. -/
def InL (N : Nat) (f : Nat → Ent α) (a b : Nat) : Prop := a ≤ b ∧ Stored N f b a

/-- Values in the middle of row `k`. -/
noncomputable def leftVals (sq : α → α) (N : Nat) (f : Nat → Ent α) (E : Nat → Nat → α) (g0 : Nat → α) (i k p q : Nat) : α :=
  if (f q).2.1 ≤ (f q).1 then
    (if (f q).1 < k ∨ ((f q).1 = k ∧ q < p) then icStep sq (InL N f) E i (f q).2.1 (f q).1 else E (f q).2.1 (f q).1)
  else g0 q

theorem illtRow_spec (P : Pat A n N f) (hx : ∃ c, A.ix N = some c) (hik : i < k) (hk : k < n) {E : Nat → Nat → α}
    (hz : ∀ a b, ¬ InL N f a b → E a b = 0) {g0 : Nat → α} (hp1 : p1 < N) (hp1k : (f p1).1 = k) (hp1i : (f p1).2.1 = i) :
    ∀ c p (v : Mem α), c = N + 1 - p → p1 < p → p ≤ pst f N (k + 1) → Vals v N (leftVals sq N f E g0 i k p) →
      Runs (illtRow A i k p1 (pst f N (k + 1)) c p v) (fun v' => Vals v' N (leftVals sq N f E g0 i (k + 1) 0)) := by
  have H := P.comp
  have s1 := (H.mem_seg hp1).mpr hp1k
  intro c
  induction c with
  | zero =>
    intro p v hc h1 h2 _
    have := le_trans h2 (H.ptr_le (k + 1))
    omega
  | succ c ih =>
    intro p v hc h1 h2 hv
    have hle := H.ptr_le (k + 1)
    unfold illtRow
    -- the loop is left
    have done : (∀ q, q < N → (f q).1 = k → (f q).2.1 ≤ k → q < p) → Vals v N (leftVals sq N f E g0 i (k + 1) 0) := by
      intro hq
      refine hv.congr fun q hqN => ?_
      unfold leftVals
      by_cases c1 : (f q).2.1 ≤ (f q).1
      · rw [if_pos c1, if_pos c1]
        by_cases c2 : (f q).1 < k + 1
        · rw [if_pos (c := _ < k + 1 ∨ _) (Or.inl c2), if_pos]
          by_cases c3 : (f q).1 = k
          · exact Or.inr ⟨c3, hq q hqN c3 (by omega)⟩
          · exact Or.inl (by omega)
        · rw [if_neg (by omega), if_neg (by omega)]
      · rw [if_neg c1, if_neg c1]
    by_cases hpe : p < pst f N (k + 1)
    · have hpN : p < N := lt_of_lt_of_le hpe hle
      have hpk : (f p).1 = k := (H.mem_seg hpN).mp ⟨le_trans s1.1 (le_of_lt h1), hpe⟩
      have hpi : i < (f p).2.1 := by
        have := P.sd.strict p1 p h1 hpN (by omega); omega
      refine Runs.rd_bind (H.ix p hpN) ?_
      by_cases hj : (f p).2.1 ≤ k
      · rw [if_pos ⟨hj, hpe⟩]
        have hS : InL N f (f p).2.1 k := ⟨hj, p, hpN, hpk, rfl⟩
        refine Runs.rd_bind (H.ptr _ (by omega)) (Runs.rd_bind (H.ptr _ (by omega)) ?_)
        refine Runs.bind (spNz_spec P hpi (by omega)) fun r hr => ?_
        cases r with
        | none =>
          refine ih (p + 1) v (by omega) (by omega) (by omega) (hv.congr fun q hq => ?_)
          unfold leftVals
          by_cases c1 : (f q).2.1 ≤ (f q).1
          · rw [if_pos c1, if_pos c1]
            by_cases e : q = p
            · subst e
              rw [if_neg (by omega), if_pos (by omega), hpk, icStep_in0 hz hpi]
              left
              refine hz _ _ ?_
              rintro ⟨-, p', h1, h2, h3⟩
              exact hr p' h1 h2 h3
            · by_cases e2 : (f q).1 < k ∨ ((f q).1 = k ∧ q < p)
              · rw [if_pos e2, if_pos (by omega)]
              · rw [if_neg e2, if_neg (by omega)]
          · rw [if_neg c1, if_neg c1]
        | some p2 =>
          obtain ⟨hp2, hp2j, hp2i⟩ := hr
          refine Runs.rd_bind (hv p hpN) (Runs.rd_bind (hv p1 hp1) (Runs.rd_bind (hv p2 hp2) (Runs.wr_bind (hv p hpN) ?_)))
          refine ih (p + 1) _ (by omega) (by omega) (by omega) ((hv.set p _).congr fun q hq => ?_)
          by_cases e : q = p
          · subst e
            rw [Function.update_self]
            have e1 : leftVals sq N f E g0 i k q q = E (f q).2.1 k := by
              unfold leftVals
              rw [if_pos (by omega), if_neg (by omega), hpk]
            have e2 : leftVals sq N f E g0 i k q p1 = E i k / sq (E i i) := by
              unfold leftVals
              rw [if_pos (by omega), if_pos (by omega), hp1k, hp1i, icStep_row hz hik]
            have e3 : leftVals sq N f E g0 i k q p2 = E i (f q).2.1 / sq (E i i) := by
              unfold leftVals
              rw [if_pos (by omega), if_pos, hp2j, hp2i, icStep_row hz hpi]
              by_cases e : (f q).2.1 = k
              · have := P.uniq hp2 hp1 (by omega) (by omega)
                right; omega
              · left; omega
            rw [e1, e2, e3]
            unfold leftVals
            rw [if_pos (by omega), if_pos (by omega), hpk, icStep_in hS hpi]
            ring
          · rw [Function.update_of_ne e]
            unfold leftVals
            by_cases c1 : (f q).2.1 ≤ (f q).1
            · rw [if_pos c1, if_pos c1]
              by_cases e2 : (f q).1 < k ∨ ((f q).1 = k ∧ q < p)
              · rw [if_pos e2, if_pos (by omega)]
              · rw [if_neg e2, if_neg (by omega)]
            · rw [if_neg c1, if_neg c1]
      · rw [if_neg (fun h => hj h.1)]
        refine Runs.pure (done fun q hq h3 h4 => ?_)
        by_contra h5
        rcases Nat.eq_or_lt_of_le (not_lt.mp h5) with e | e
        · subst e; omega
        · have := P.sd.strict p q e hq (by omega); omega
    · obtain ⟨c', hc'⟩ : ∃ c', A.ix p = some c' := by
        by_cases e : p = N
        · rw [e]; exact hx
        · exact ⟨_, H.ix p (by omega)⟩
      refine Runs.rd_bind hc' ?_
      rw [if_neg (fun h => hpe h.2)]
      refine Runs.pure (done fun q hq h3 _ => ?_)
      exact lt_of_lt_of_le ((H.mem_seg hq).mpr h3).2 (not_lt.mp hpe)

theorem illtCol_spec (P : Pat A n N f) (hx : ∃ c, A.ix N = some c) (hik : i < k) (hk : k < n) {E : Nat → Nat → α}
    (hz : ∀ a b, ¬ InL N f a b → E a b = 0) {g0 : Nat → α} {v : Mem α} (hv : Vals v N (leftVals sq N f E g0 i k 0)) :
    Runs (illtCol A i (sq (E i i)) k v) (fun v' => Vals v' N (leftVals sq N f E g0 i (k + 1) 0)) := by
  have H := P.comp
  unfold illtCol
  refine Runs.rd_bind (H.ptr k (by omega)) (Runs.rd_bind (H.ptr (k + 1) (by omega)) ?_)
  refine Runs.bind (spNz_spec P hik hk) fun r hr => ?_
  cases r with
  | none =>
    refine Runs.pure (hv.congr fun q hq => ?_)
    unfold leftVals
    by_cases c1 : (f q).2.1 ≤ (f q).1
    · rw [if_pos c1, if_pos c1]
      by_cases c : (f q).1 = k
      · rw [if_neg (by omega), if_pos (by omega)]
        by_cases c2 : (f q).2.1 < i
        · rw [icStep_keep hz c2]
        · have := hr q hq c
          rw [icStep_in0 hz (by omega) (Or.inr _)]
          refine hz _ _ ?_
          rintro ⟨-, p', h1, h2, h3⟩
          exact hr p' h1 (by omega) h3
      · by_cases c2 : (f q).1 < k
        · rw [if_pos (by omega), if_pos (by omega)]
        · rw [if_neg (by omega), if_neg (by omega)]
    · rw [if_neg c1, if_neg c1]
  | some p1 =>
    obtain ⟨hp1, hp1k, hp1i⟩ := hr
    refine Runs.rd_bind (hv p1 hp1) (Runs.wr_bind (hv p1 hp1) ?_)
    rw [P.nnz]
    refine illtRow_spec P hx hik hk hz hp1 hp1k hp1i _ (p1 + 1) _ rfl (by omega) ((H.mem_seg hp1).mpr hp1k).2 ((hv.set p1 _).congr fun q hq => ?_)
    by_cases e : q = p1
    · subst e
      rw [Function.update_self]
      unfold leftVals
      rw [if_pos (by omega), if_neg (by omega), if_pos (by omega), if_pos (by omega), hp1k, hp1i, icStep_row hz hik]
    · rw [Function.update_of_ne e]
      unfold leftVals
      by_cases c1 : (f q).2.1 ≤ (f q).1
      · rw [if_pos c1, if_pos c1]
        by_cases c2 : (f q).1 < k
        · rw [if_pos (Or.inl c2), if_pos (Or.inl c2)]
        · rw [if_neg (by omega)]
          by_cases c3 : (f q).1 = k ∧ q < p1 + 1
          · have := P.sd.strict q p1 (by omega) hp1 (by omega)
            rw [if_pos (Or.inr c3), icStep_keep hz (by omega)]
          · rw [if_neg (by omega)]
      · rw [if_neg c1, if_neg c1]

/-- Values after `i` steps. -/
noncomputable def leftSeq (sq : α → α) (N : Nat) (f : Nat → Ent α) (E : Nat → Nat → α) (g0 : Nat → α) (i q : Nat) : α :=
  if (f q).2.1 ≤ (f q).1 then icSeq sq (InL N f) E i (f q).2.1 (f q).1 else g0 q

theorem illtzLeft_spec (P : Pat A n N f) (hx : ∃ c, A.ix N = some c) {E : Nat → Nat → α} (hz : ∀ a b, ¬ InL N f a b → E a b = 0)
    {g0 : Nat → α} (hv : Vals A.v N (leftSeq sq N f E g0 0)) :
    Runs (illtzLeft sq A n n) (fun M => ∃ v', M = { A with v := v' } ∧ Vals v' N (leftSeq sq N f E g0 n)) := by
  have H := P.comp
  unfold illtzLeft
  refine Runs.bind (P := fun r => Vals r.2 N (leftSeq sq N f E g0 n)) ?_ fun r h => Runs.pure ⟨_, rfl, h⟩
  refine Runs.forUp1 (I := fun i v => Vals v N (leftSeq sq N f E g0 i)) (Nat.zero_le n) hv ?_ (fun v h => h)
  intro i v _ hi hv
  obtain ⟨D, hD1, hD2, hD3⟩ := P.sd.diag i hi
  have hD : DiagAt N f i D := ⟨hD1, hD2, hD3⟩
  have hzi := icSeq_zero (sq := sq) hz i
  have hseg := hD.seg H
  refine Runs.rd_bind (H.ptr i (by omega)) ?_
  rw [P.nnz]
  refine Runs.bind (P := fun x => x = D) ⟨D, skipUp_spec H P.sd hD (le_refl _) hseg.1 (Nat.sub_lt_sub_right hseg.1 hD1), rfl⟩ fun p0 hp0 => ?_
  subst hp0
  refine Runs.rd_bind (H.ix _ hD1) ?_
  rw [if_neg (by rw [hD3]; simp)]
  refine Runs.rd_bind (hv _ hD1) (Runs.wr_bind (hv _ hD1) ?_)
  have e0 : leftSeq sq N f E g0 i p0 = icSeq sq (InL N f) E i i i := by
    unfold leftSeq
    rw [if_pos (by omega), hD2, hD3]
  rw [e0]
  refine Runs.bind (P := fun r => Vals r.2 N (leftSeq sq N f E g0 (i + 1))) ?_ fun r h => Runs.pure h
  refine Runs.forUp1 (I := fun k v => Vals v N (leftVals sq N f (icSeq sq (InL N f) E i) g0 i k 0)) (by omega) ((hv.set p0 _).congr fun q hq => ?_)
    (fun k v h1 h2 h3 => illtCol_spec P hx (by omega) h2 hzi h3) (fun v h => h.congr fun q hq => ?_)
  · by_cases e : q = p0
    · subst e
      rw [Function.update_self]
      unfold leftVals
      rw [if_pos (by omega), if_pos (by omega), hD2, hD3, icStep_diag ⟨le_refl _, q, hq, hD2, hD3⟩]
    · rw [Function.update_of_ne e]
      unfold leftVals leftSeq
      by_cases c1 : (f q).2.1 ≤ (f q).1
      · rw [if_pos c1, if_pos c1]
        by_cases c : (f q).1 < i + 1
        · rw [if_pos (Or.inl c), icStep_keep hzi]
          by_contra h
          exact e (P.uniq hq hD1 (by omega) (by omega))
        · rw [if_neg (by omega)]
      · rw [if_neg c1, if_neg c1]
  · unfold leftVals leftSeq
    have := H.major q hq
    by_cases c1 : (f q).2.1 ≤ (f q).1
    · rw [if_pos c1, if_pos c1, if_pos (by omega)]; rfl
    · rw [if_neg c1, if_neg c1]

/-! ## Outer products: `csr_illtz_upper`, `csc_illtz_lower` -/

theorem illtSkip_spec (P : Pat A n N f) {j D : Nat} (hD : DiagAt N f j D) : ∀ c p, c = N - p → pst f N j ≤ p → p ≤ D →
    illtSkip A.ix j (pst f N (j + 1)) c p = .ok D := by
  have H := P.comp
  have hseg := hD.seg H
  intro c
  induction c with
  | zero => intro p hc h1 h2; have := hD.lt; omega
  | succ c ih =>
    intro p hc h1 h2
    have hp : p < N := lt_of_le_of_lt h2 hD.lt
    have hm := (H.mem_seg hp).mp ⟨h1, lt_of_le_of_lt h2 hseg.2⟩
    unfold illtSkip
    rw [rd_ok (H.ix p hp), Res.ok_bind]
    by_cases e : p = D
    · subst e
      rw [if_neg (by rw [hD.min]; omega)]; rfl
    · have := P.sd.strict p D (by omega) hD.lt (by rw [hm, hD.maj])
      rw [if_pos ⟨by rw [hD.min] at this; exact this, lt_of_le_of_lt h2 hseg.2⟩]
      exact ih (p + 1) (by omega) (by omega) (by omega)

/-- The merge: the elements of row `j` from its diagonal get `- G c * g p`, `G` being the elements of row `i` behind `p0`. -/
theorem illtMerge_spec (P : Pat A n N f) {j D p : Nat} (hij : i ≠ j) (hp0 : p0 < N) (hp0i : (f p0).1 = i) (hD : DiagAt N f j D) (hp : p < N)
    (hpi : (f p).1 = i) {v : Mem α} {g G : Nat → α} (hv : Vals v N g) (hG1 : ∀ u, p0 < u → u < N → (f u).1 = i → G (f u).2.1 = g u)
    (hG2 : ∀ c, (∀ u, p0 < u → u < N → (f u).1 = i → (f u).2.1 ≠ c) → j ≤ c → G c = 0) :
    Runs (illtMerge A.ix p (pst f N (i + 1)) (pst f N (j + 1)) ((pst f N (i + 1) - (p0 + 1)) + (pst f N (j + 1) - D)) (p0 + 1) D v)
      (fun v' => Vals v' N (fun q => if D ≤ q ∧ (f q).1 = j then g q - G (f q).2.1 * g p else g q)) := by
  have H := P.comp
  have s0 := (H.mem_seg hp0).mpr hp0i
  have sD := hD.seg H
  have inJ : ∀ q, D ≤ q → q < pst f N (j + 1) → q < N ∧ (f q).1 = j := fun q h1 h2 => by
    have hq : q < N := lt_of_lt_of_le h2 (H.ptr_le _)
    exact ⟨hq, (H.mem_seg hq).mp ⟨le_trans sD.1 h1, h2⟩⟩
  have inI : ∀ q, p0 < q → q < pst f N (i + 1) → q < N ∧ (f q).1 = i := fun q h1 h2 => by
    have hq : q < N := lt_of_lt_of_le h2 (H.ptr_le _)
    exact ⟨hq, (H.mem_seg hq).mp ⟨le_trans s0.1 (le_of_lt h1), h2⟩⟩
  have geJ : ∀ q, D ≤ q → q < N → (f q).1 = j → j ≤ (f q).2.1 := fun q h1 h2 h3 => by
    rcases Nat.eq_or_lt_of_le h1 with e | e
    · subst e; exact ge_of_eq hD.min
    · have := P.sd.strict D q e h2 (by rw [h3, hD.maj])
      have h4 := hD.min
      omega
  have key : ∀ c u q2 (v : Mem α), (pst f N (i + 1) - u) + (pst f N (j + 1) - q2) ≤ c → p0 < u → D ≤ q2 →
      Vals v N (fun q => if D ≤ q ∧ (f q).1 = j ∧ q < q2 then g q - G (f q).2.1 * g p else g q) →
      (∀ q' u', q2 ≤ q' → q' < pst f N (j + 1) → p0 < u' → u' < u → u' < N → (f u').1 = i → (f q').2.1 ≠ (f u').2.1) →
      Runs (illtMerge A.ix p (pst f N (i + 1)) (pst f N (j + 1)) c u q2 v)
        (fun v' => Vals v' N (fun q => if D ≤ q ∧ (f q).1 = j then g q - G (f q).2.1 * g p else g q)) := by
    have done : ∀ u q2 (v : Mem α), ¬ (u < pst f N (i + 1) ∧ q2 < pst f N (j + 1)) → p0 < u → D ≤ q2 →
        Vals v N (fun q => if D ≤ q ∧ (f q).1 = j ∧ q < q2 then g q - G (f q).2.1 * g p else g q) →
        (∀ q' u', q2 ≤ q' → q' < pst f N (j + 1) → p0 < u' → u' < u → u' < N → (f u').1 = i → (f q').2.1 ≠ (f u').2.1) →
        Vals v N (fun q => if D ≤ q ∧ (f q).1 = j then g q - G (f q).2.1 * g p else g q) := by
      intro u q2 v hc h1 h2 hv hne
      refine hv.congr fun q hq => ?_
      by_cases c1 : D ≤ q ∧ (f q).1 = j
      · rw [if_pos c1]
        by_cases c2 : q < q2
        · rw [if_pos ⟨c1.1, c1.2, c2⟩]
        · rw [if_neg (fun h => c2 h.2.2)]
          have hqs := (H.mem_seg hq).mpr c1.2
          have hue : ¬ u < pst f N (i + 1) := fun h => hc ⟨h, lt_of_le_of_lt (by omega) hqs.2⟩
          rw [hG2 (f q).2.1 (fun u' a b c => ?_) (geJ q c1.1 hq c1.2)]
          · ring
          · have hus := (H.mem_seg b).mpr c
            exact (hne q u' (by omega) hqs.2 a (lt_of_lt_of_le hus.2 (not_lt.mp hue)) b c).symm
      · rw [if_neg c1, if_neg (fun h => c1 ⟨h.1, h.2.1⟩)]
    intro c
    induction c with
    | zero =>
      intro u q2 v hc h1 h2 hv hne
      unfold illtMerge
      exact Runs.pure (done u q2 v (by omega) h1 h2 hv hne)
    | succ c ih =>
      intro u q2 v hc h1 h2 hv hne
      unfold illtMerge
      by_cases cc : u < pst f N (i + 1) ∧ q2 < pst f N (j + 1)
      · rw [if_pos cc]
        obtain ⟨hqN, hqj⟩ := inJ q2 h2 cc.2
        obtain ⟨huN, hui⟩ := inI u h1 cc.1
        refine Runs.rd_bind (H.ix u huN) (Runs.rd_bind (H.ix q2 hqN) ?_)
        have asc : ∀ q', q2 < q' → q' < pst f N (j + 1) → (f q2).2.1 < (f q').2.1 := fun q' a b => by
          obtain ⟨e1, e2⟩ := inJ q' (by omega) b
          exact P.sd.strict q2 q' a e1 (by rw [hqj, e2])
        have ascu : ∀ u', u < u' → u' < N → (f u').1 = i → (f u).2.1 < (f u').2.1 := fun u' a b c =>
          P.sd.strict u u' a b (by rw [hui, c])
        by_cases c1 : (f u).2.1 = (f q2).2.1
        · rw [if_pos c1]
          refine Runs.rd_bind (hv q2 hqN) (Runs.rd_bind (hv u huN) (Runs.rd_bind (hv p hp) (Runs.wr_bind (hv q2 hqN) ?_)))
          refine ih (u + 1) (q2 + 1) _ (by omega) (by omega) (by omega) ((hv.set q2 _).congr fun q hq => ?_) ?_
          · by_cases e : q = q2
            · subst e
              rw [Function.update_self]
              beta_reduce
              rw [if_neg (c := D ≤ q ∧ _ ∧ q < q) (by omega), if_neg (c := D ≤ u ∧ _) (by rw [hui]; rintro ⟨-, h, -⟩; exact hij h),
                if_neg (c := D ≤ p ∧ _) (by rw [hpi]; rintro ⟨-, h, -⟩; exact hij h), if_pos ⟨h2, hqj, by omega⟩, ← c1, hG1 u h1 huN hui]
            · rw [Function.update_of_ne e]
              by_cases e2 : D ≤ q ∧ (f q).1 = j ∧ q < q2
              · rw [if_pos e2, if_pos ⟨e2.1, e2.2.1, by omega⟩]
              · rw [if_neg e2, if_neg (fun h => e2 ⟨h.1, h.2.1, by omega⟩)]
          · intro q' u' a b c' d' e' f' heq
            by_cases e2 : u' = u
            · subst e2; have := asc q' (by omega) b; omega
            · exact hne q' u' (by omega) b c' (by omega) e' f' heq
        · rw [if_neg c1]
          by_cases c2 : (f u).2.1 < (f q2).2.1
          · rw [if_pos c2]
            refine ih (u + 1) q2 v (by omega) (by omega) h2 hv (fun q' u' a b c' d' e' f' heq => ?_)
            by_cases e2 : u' = u
            · subst e2
              by_cases e3 : q' = q2
              · subst e3; exact c1 heq.symm
              · have := asc q' (by omega) b; omega
            · exact hne q' u' a b c' (by omega) e' f' heq
          · rw [if_neg c2]
            refine ih u (q2 + 1) v (by omega) h1 (by omega) (hv.congr fun q hq => ?_) (fun q' u' a b c' d' e' f' =>
              hne q' u' (by omega) b c' d' e' f')
            by_cases e : q = q2
            · subst e
              rw [if_neg (by omega), if_pos ⟨h2, hqj, by omega⟩, hG2 (f q).2.1 (fun u' a b c' => ?_) (geJ q h2 hq hqj)]
              · ring
              · rcases Nat.lt_trichotomy u' u with e | e | e
                · exact (hne q u' (le_refl _) cc.2 a e b c').symm
                · subst e; exact c1
                · have := ascu u' e b c'; omega
            · by_cases e2 : D ≤ q ∧ (f q).1 = j ∧ q < q2
              · rw [if_pos e2, if_pos ⟨e2.1, e2.2.1, by omega⟩]
              · rw [if_neg e2, if_neg (fun h => e2 ⟨h.1, h.2.1, by omega⟩)]
      · rw [if_neg cc]
        exact Runs.pure (done u q2 v cc h1 h2 hv hne)
  refine key _ (p0 + 1) D v (le_refl _) (by omega) (le_refl _) (hv.congr fun q hq => ?_) ?_
  · rw [if_neg (by omega)]
  · intro q' u' _ _ a b; omega

/-- The stored elements of the triangle, for the outer product version. -/
def InR (N : Nat) (f : Nat → Ent α) (a b : Nat) : Prop := a ≤ b ∧ Stored N f a b

/-- Row `r` belongs to an element of row `i` between `p0` and `p`. -/
def Done (N : Nat) (f : Nat → Ent α) (i p0 p r : Nat) : Prop := ∃ p', p0 < p' ∧ p' < p ∧ p' < N ∧ (f p').1 = i ∧ (f p').2.1 = r

/-- Values when the elements of row `i` before `p` are worked off. -/
noncomputable def rightVals (sq : α → α) (N : Nat) (f : Nat → Ent α) (E : Nat → Nat → α) (g0 : Nat → α) (i p0 p q : Nat) : α :=
  if (f q).1 ≤ (f q).2.1 then
    (if i < (f q).1 ∧ ¬ Done N f i p0 p (f q).1 then E (f q).1 (f q).2.1 else icStep sq (InR N f) E i (f q).1 (f q).2.1)
  else g0 q

theorem illtUpdate_spec (P : Pat A n N f) (hD0 : DiagAt N f i p0) {E : Nat → Nat → α}
    (hz : ∀ a b, ¬ InR N f a b → E a b = 0) {g0 : Nat → α} {p : Nat} (hp : p0 < p) (hpe : p < pst f N (i + 1)) {v : Mem α}
    (hv : Vals v N (rightVals sq N f E g0 i p0 p)) :
    Runs (illtUpdate A p0 (pst f N (i + 1)) p v) (fun v' => Vals v' N (rightVals sq N f E g0 i p0 (p + 1))) := by
  have H := P.comp
  have hseg := hD0.seg H
  have hpN : p < N := lt_of_lt_of_le hpe (H.ptr_le _)
  have hpi : (f p).1 = i := (H.mem_seg hpN).mp ⟨le_trans hseg.1 (le_of_lt hp), hpe⟩
  have hij : i < (f p).2.1 := (hD0.above P.sd hpN hpi).mp hp
  have hjn := H.minor p hpN
  obtain ⟨D, hD1, hD2, hD3⟩ := P.sd.diag _ hjn
  have hD : DiagAt N f (f p).2.1 D := ⟨hD1, hD2, hD3⟩
  have hsD := hD.seg H
  unfold illtUpdate
  refine Runs.rd_bind (H.ix p hpN) (Runs.rd_bind (H.ptr _ (by omega)) (Runs.rd_bind (H.ptr _ (by omega)) ?_))
  rw [P.nnz]
  refine Runs.bind (P := fun x => x = D) ⟨D, illtSkip_spec P hD _ _ rfl (le_refl _) hsD.1, rfl⟩ fun p2 hp2 => ?_
  subst hp2
  have hrow : ∀ u, p0 < u → u < N → (f u).1 = i → rightVals sq N f E g0 i p0 p u = E i (f u).2.1 / sq (E i i) := by
    intro u h1 h2 h3
    have := (hD0.above P.sd h2 h3).mp h1
    unfold rightVals
    rw [if_pos (by omega), if_neg (by omega), h3, icStep_row hz this]
  refine (illtMerge_spec P (by omega) hD0.lt hD0.maj hD hpN hpi hv (G := fun c => E i c / sq (E i i)) ?_ ?_).mono
    fun v' hv' => hv'.congr fun q hq => ?_
  · intro u h1 h2 h3
    exact (hrow u h1 h2 h3).symm
  · intro c hc hjc
    rw [hz i c, zero_div]
    rintro ⟨-, u, h1, h2, h3⟩
    exact hc u ((hD0.above P.sd h1 h2).mpr (by omega)) h1 h2 h3
  · rw [hrow p hp hpN hpi]
    have nd : ¬ Done N f i p0 p (f p).2.1 := by
      rintro ⟨p', h1, h2, h3, h4, h5⟩
      have := P.sd.strict p' p h2 hpN (by omega); omega
    by_cases c1 : p2 ≤ q ∧ (f q).1 = (f p).2.1
    · rw [if_pos c1]
      have hle : (f q).1 ≤ (f q).2.1 := by
        rcases Nat.eq_or_lt_of_le c1.1 with e | e
        · subst e; omega
        · have := P.sd.strict p2 q e hq (by omega); omega
      unfold rightVals
      rw [if_pos hle, if_pos hle, if_pos ⟨by omega, by rw [c1.2]; exact nd⟩, if_neg, icStep_in ⟨hle, q, hq, rfl, rfl⟩ (by omega), c1.2]
      · ring
      · rintro ⟨-, h⟩
        exact h ⟨p, hp, by omega, hpN, hpi, c1.2.symm⟩
    · rw [if_neg c1]
      unfold rightVals
      by_cases c2 : (f q).1 ≤ (f q).2.1
      · rw [if_pos c2, if_pos c2]
        have hiff : Done N f i p0 (p + 1) (f q).1 ↔ Done N f i p0 p (f q).1 := by
          constructor
          · rintro ⟨p', h1, h2, h3, h4, h5⟩
            by_cases e : p' = p
            · subst e
              refine absurd ⟨?_, h5.symm⟩ c1
              by_contra h
              have := P.sd.strict q p2 (by omega) hD1 (by omega); omega
            · exact ⟨p', h1, by omega, h3, h4, h5⟩
          · rintro ⟨p', h1, h2, h3, h4, h5⟩
            exact ⟨p', h1, by omega, h3, h4, h5⟩
        rw [hiff]
      · rw [if_neg c2, if_neg c2]

/-- Values after `i` steps. -/
noncomputable def rightSeq (sq : α → α) (N : Nat) (f : Nat → Ent α) (E : Nat → Nat → α) (g0 : Nat → α) (i q : Nat) : α :=
  if (f q).1 ≤ (f q).2.1 then icSeq sq (InR N f) E i (f q).1 (f q).2.1 else g0 q

theorem illtzRight_spec (P : Pat A n N f) {E : Nat → Nat → α} (hz : ∀ a b, ¬ InR N f a b → E a b = 0)
    {g0 : Nat → α} (hv : Vals A.v N (rightSeq sq N f E g0 0)) :
    Runs (illtzRight sq A n) (fun M => ∃ v', M = { A with v := v' } ∧ Vals v' N (rightSeq sq N f E g0 n)) := by
  have H := P.comp
  unfold illtzRight
  refine Runs.bind (P := fun r => Vals r.2 N (rightSeq sq N f E g0 n)) ?_ fun r h => Runs.pure ⟨_, rfl, h⟩
  refine Runs.forUp1 (I := fun i v => Vals v N (rightSeq sq N f E g0 i)) (Nat.zero_le n) hv ?_ (fun v h => h)
  intro i v _ hi hv
  obtain ⟨D, hD1, hD2, hD3⟩ := P.sd.diag i hi
  have hD : DiagAt N f i D := ⟨hD1, hD2, hD3⟩
  have hzi := icSeq_zero (sq := sq) hz i
  have hseg := hD.seg H
  refine Runs.rd_bind (H.ptr i (by omega)) ?_
  rw [P.nnz]
  refine Runs.bind (P := fun x => x = D) ⟨D, skipUp_spec H P.sd hD (le_refl _) hseg.1 (Nat.sub_lt_sub_right hseg.1 hD1), rfl⟩ fun p0 hp0 => ?_
  subst hp0
  refine Runs.rd_bind (H.ix _ hD1) ?_
  rw [if_neg (by rw [hD3]; simp)]
  refine Runs.rd_bind (hv _ hD1) (Runs.wr_bind (hv _ hD1) (Runs.rd_bind (H.ptr (i + 1) (by omega)) ?_))
  have e0 : rightSeq sq N f E g0 i p0 = icSeq sq (InR N f) E i i i := by
    unfold rightSeq
    rw [if_pos (by omega), hD2, hD3]
  rw [e0]
  set F := icSeq sq (InR N f) E i with hF
  refine Runs.bind (P := fun r => Vals r.2 N (rightVals sq N f F g0 i p0 (p0 + 1))) ?_ fun r h1 => ?_
  · refine Runs.forUp1 (I := fun p v => Vals v N (fun q => if (f q).1 = i ∧ p0 ≤ q ∧ q < p then icStep sq (InR N f) F i i (f q).2.1
      else rightSeq sq N f E g0 i q)) hseg.2 ((hv.set p0 _).congr fun q hq => ?_) ?_ (fun v h => h.congr fun q hq => ?_)
    · by_cases e : q = p0
      · subst e
        rw [Function.update_self, if_pos ⟨hD2, le_refl _, by omega⟩, hD3, icStep_diag ⟨le_refl _, q, hq, hD2, hD3⟩]
      · rw [Function.update_of_ne e, if_neg (by omega)]
    · intro p v h1 h2 h3
      have hp : p < N := lt_of_lt_of_le h2 (H.ptr_le _)
      have hpi : (f p).1 = i := (H.mem_seg hp).mp ⟨le_trans hseg.1 (by omega), h2⟩
      have hij := (hD.above P.sd hp hpi).mp (by omega)
      refine Runs.rd_bind (h3 p hp) (Runs.wr (h3 p hp) ((h3.set p _).congr fun q hq => ?_))
      by_cases e : q = p
      · subst e
        rw [Function.update_self]
        beta_reduce
        rw [if_neg (by omega), if_pos ⟨hpi, by omega, by omega⟩, icStep_row hzi hij]
        unfold rightSeq
        rw [if_pos (by omega), hpi]
      · rw [Function.update_of_ne e]
        by_cases e2 : (f q).1 = i ∧ p0 ≤ q ∧ q < p
        · rw [if_pos e2, if_pos ⟨e2.1, e2.2.1, by omega⟩]
        · rw [if_neg e2, if_neg (by omega)]
    · unfold rightVals rightSeq
      by_cases e2 : (f q).1 = i ∧ p0 ≤ q
      · have hle : (f q).1 ≤ (f q).2.1 := by
          rcases Nat.eq_or_lt_of_le e2.2 with e | e
          · subst e; omega
          · have := (hD.above P.sd hq e2.1).mp e; omega
        rw [if_pos ⟨e2.1, e2.2, ((H.mem_seg hq).mpr e2.1).2⟩, if_pos hle, if_neg (by omega), e2.1]
      · rw [if_neg (fun h => e2 ⟨h.1, h.2.1⟩)]
        by_cases c1 : (f q).1 ≤ (f q).2.1
        · rw [if_pos c1, if_pos c1]
          have nd : ¬ Done N f i p0 (p0 + 1) (f q).1 := by rintro ⟨p', h1, h2, _⟩; omega
          by_cases c2 : i < (f q).1
          · rw [if_pos ⟨c2, nd⟩]
          · rw [if_neg (fun h => c2 h.1), icStep_keep hzi]
            by_contra c3
            have hqi : (f q).1 = i := by omega
            have := mt (hD.above P.sd hq hqi).mpr (by omega)
            exact e2 ⟨hqi, le_of_eq (P.uniq hD1 hq (by omega) (by omega))⟩
        · rw [if_neg c1, if_neg c1]
  refine Runs.bind (P := fun r => Vals r.2 N (rightSeq sq N f E g0 (i + 1))) ?_ fun r h => Runs.pure h
  refine Runs.forUp1 (I := fun p v => Vals v N (rightVals sq N f F g0 i p0 p)) hseg.2 h1
    (fun p v h1 h2 h3 => illtUpdate_spec P hD hzi (by omega) h2 h3) (fun v h => h.congr fun q hq => ?_)
  unfold rightVals rightSeq
  by_cases c1 : (f q).1 ≤ (f q).2.1
  · rw [if_pos c1, if_pos c1]
    by_cases c2 : i < (f q).1 ∧ ¬ Done N f i p0 (pst f N (i + 1)) (f q).1
    · rw [if_pos c2]
      refine (icStep_in0 hzi c2.1 (Or.inl (hzi _ _ ?_))).symm
      rintro ⟨-, u, h1, h2, h3⟩
      exact c2.2 ⟨u, (hD.above P.sd h1 h2).mpr (by omega), ((H.mem_seg h1).mpr h2).2, h1, h2, h3⟩
    · rw [if_neg c2]; rfl
  · rw [if_neg c1, if_neg c1]

end Armas
