import Verif.SparseAddLemmas

/-!
# The row programs of sparse sum and product
-/

namespace Armas

open Finset

variable {α : Type} [CommRing α] {acc : Accum α} {n i : Nat} {T : Nat → Prop} {s : Nat → α}

/-- A loop that adds `g p` in round `p`. -/
theorem accLoop {a b : Nat} {body : Nat → Accum α → Res (Accum α)} {g : Nat → Nat → α} (hab : a ≤ b) (h : AccIs acc n i T s)
    (hstep : ∀ p acc s, a ≤ p → p < b → AccIs acc n i T s → Runs (body p acc) (fun r => AccIs r n i T (fun c => s c + g p c))) :
    Runs (forUp a b 1 body acc) (fun r => AccIs r.2 n i T (fun c => s c + ∑ p ∈ Ico a b, g p c)) := by
  refine Runs.forUp1 (I := fun k acc => AccIs acc n i T (fun c => s c + ∑ p ∈ Ico a k, g p c)) hab (h.congr fun c _ => by simp) ?_ (fun _ h => h)
  intro p acc h1 h2 h3
  refine (hstep p acc _ h1 h2 h3).mono fun r hr => hr.congr fun c _ => ?_
  rw [sum_Ico_succ_top h1, add_assoc]

variable {A B : Sp α} {m d N M : Nat} {f g : Nat → Ent α}

theorem dense_seg {ptr ix : Mem Nat} {v : Mem α} (H : Compressed ptr ix v m d N f) (j c : Nat) (beta : α) :
    ∑ p ∈ Ico (pst f N j) (pst f N (j + 1)), (if c = (f p).2.1 then beta * (f p).2.2 else 0) = beta * dense N f j c := by
  rw [sum_seg H]
  unfold dense
  rw [mul_sum]
  refine sum_congr rfl fun p _ => ?_
  by_cases h1 : (f p).1 = j
  · by_cases h2 : c = (f p).2.1
    · rw [if_pos h1, if_pos h2, if_pos ⟨h1, h2.symm⟩]
    · rw [if_pos h1, if_neg h2, if_neg (fun h => h2 h.2.symm), mul_zero]
  · rw [if_neg h1, if_neg (fun h => h1 h.1), mul_zero]

theorem addRow_spec (H : Compressed A.ptr A.ix A.v m n N f) (hi : i < m) (h : AccIs acc n i T s) (hT : ∀ p, p < N → (f p).1 = i → T (f p).2.1)
    (alpha : α) : Runs (addRow alpha A i acc) (fun r => AccIs r n i T (fun c => s c + alpha * dense N f i c)) := by
  unfold addRow
  refine Runs.rd_bind (H.ptr i (by omega)) (Runs.rd_bind (H.ptr (i + 1) (by omega)) ?_)
  refine Runs.bind (accLoop (g := fun p c => if c = (f p).2.1 then alpha * (f p).2.2 else 0) (H.ptr_mono i) h ?_) fun r hr =>
    Runs.pure (hr.congr fun c _ => ?_)
  · intro p acc s h1 h2 h3
    have hp : p < N := lt_of_lt_of_le h2 (H.ptr_le _)
    have hm := (H.mem_seg hp).mp ⟨h1, h2⟩
    exact Runs.rd_bind (H.v p hp) (Runs.rd_bind (H.ix p hp) (accAddpos_spec h3 (H.minor p hp) (hT p hp hm) _))
  · rw [dense_seg H]

theorem accScatter_spec {k : Nat} (H : Compressed B.ptr B.ix B.v m n N f) (hk : k < m) (h : AccIs acc n i T s)
    (hT : ∀ p, p < N → (f p).1 = k → T (f p).2.1) (beta : α) :
    Runs (accScatter acc B k beta i) (fun r => AccIs r n i T (fun c => s c + beta * dense N f k c)) := by
  unfold accScatter
  refine Runs.rd_bind (H.ptr k (by omega)) (Runs.rd_bind (H.ptr (k + 1) (by omega)) ?_)
  refine Runs.bind (accLoop (g := fun p c => if c = (f p).2.1 then beta * (f p).2.2 else 0) (H.ptr_mono k) h ?_) fun r hr =>
    Runs.pure (hr.congr fun c _ => ?_)
  · intro p acc s h1 h2 h3
    have hp : p < N := lt_of_lt_of_le h2 (H.ptr_le _)
    have hm := (H.mem_seg hp).mp ⟨h1, h2⟩
    exact Runs.rd_bind (H.ix p hp) (Runs.rd_bind (H.v p hp) (accAddpos_spec h3 (H.minor p hp) (hT p hp hm) _))
  · rw [dense_seg H]

theorem mulRow_spec {X Y : Sp α} {k : Nat} (HY : Compressed Y.ptr Y.ix Y.v m k N f) (HX : Compressed X.ptr X.ix X.v k n M g) (hi : i < m)
    (h : AccIs acc n i T s) (hT : ∀ p q, p < N → q < M → (f p).1 = i → (f p).2.1 = (g q).1 → T (g q).2.1) :
    Runs (mulRow Y X i acc) (fun r => AccIs r n i T (fun c => s c + ∑ l ∈ range k, dense N f i l * dense M g l c)) := by
  unfold mulRow
  refine Runs.rd_bind (HY.ptr i (by omega)) (Runs.rd_bind (HY.ptr (i + 1) (by omega)) ?_)
  refine Runs.bind (accLoop (g := fun p c => (f p).2.2 * dense M g (f p).2.1 c) (HY.ptr_mono i) h ?_) fun r hr =>
    Runs.pure (hr.congr fun c _ => ?_)
  · intro p acc s h1 h2 h3
    have hp : p < N := lt_of_lt_of_le h2 (HY.ptr_le _)
    have hm := (HY.mem_seg hp).mp ⟨h1, h2⟩
    exact Runs.rd_bind (HY.ix p hp) (Runs.rd_bind (HY.v p hp) (accScatter_spec HX (HY.minor p hp) h3 (fun q hq e => hT p q hp hq hm e.symm) _))
  · rw [sum_seg HY, sum_dense (range k) i (fun l => dense M g l c)]
    congr 1
    refine sum_congr rfl fun p hp => ?_
    by_cases h1 : (f p).1 = i
    · rw [if_pos h1, if_pos ⟨h1, mem_range.mpr (HY.minor p (mem_range.mp hp))⟩]
    · rw [if_neg h1, if_neg (fun h => h1 h.1)]

/-! ## Searching one element -/

/-- Strictly ascending indices in each row (column). -/
def Strict (N : Nat) (f : Nat → Ent α) : Prop := ∀ p q, p < q → q < N → (f p).1 = (f q).1 → (f p).2.1 < (f q).2.1

/-- The last element of the last row (column) is stored. -/
def Corner (n d N : Nat) (f : Nat → Ent α) : Prop := ∃ p, p < N ∧ (f p).1 + 1 = n ∧ (f p).2.1 + 1 = d

theorem dense_at (S : Strict N f) {p : Nat} (hp : p < N) : dense N f (f p).1 (f p).2.1 = (f p).2.2 := by
  unfold dense
  rw [sum_eq_single p]
  · rw [if_pos ⟨rfl, rfl⟩]
  · intro q hq hne
    rw [mem_range] at hq
    rw [if_neg]
    rintro ⟨h1, h2⟩
    rcases Nat.lt_or_gt_of_ne hne with c | c
    · have := S q p c hp h1; omega
    · have := S p q c hq h1.symm; omega
  · intro h; exact absurd (mem_range.mpr hp) h

theorem dense_none {r c : Nat} (h : ∀ p, p < N → (f p).1 = r → (f p).2.1 ≠ c) : dense N f r c = 0 := by
  unfold dense
  refine sum_eq_zero fun p hp => ?_
  rw [if_neg]
  rintro ⟨a, b⟩
  exact h p (mem_range.mp hp) a b

theorem spNz_find {k : Nat} (H : Compressed A.ptr A.ix A.v m d N f) (hN : A.nnz = N) (S : Strict N f) (hC : Corner m d N f) (hk : k < m) (hi : i < d) :
    Runs (spNz A i (pst f N (k + 1)) (A.nnz - pst f N k) (pst f N k)) (fun r => match r with
      | some p => p < N ∧ (f p).1 = k ∧ (f p).2.1 = i
      | none => ∀ p, p < N → (f p).1 = k → (f p).2.1 ≠ i) := by
  rw [hN]
  obtain ⟨pc, hpc, hpc1, hpc2⟩ := hC
  have key : ∀ g p, g = N - p → pst f N k ≤ p → p ≤ pst f N (k + 1) → (∀ q, q < N → (f q).1 = k → q < p → (f q).2.1 < i) →
      Runs (spNz A i (pst f N (k + 1)) g p) (fun r => match r with
      | some p => p < N ∧ (f p).1 = k ∧ (f p).2.1 = i
      | none => ∀ p, p < N → (f p).1 = k → (f p).2.1 ≠ i) := by
    intro g
    induction g with
    | zero =>
      intro p hg h1 h2 h3
      exfalso
      have hp : N ≤ p := by omega
      by_cases c : (f pc).1 = k
      · have := h3 pc hpc c (by omega); omega
      · have h4 : ¬ pc < pst f N (k + 1) := by
          intro h5
          by_cases h6 : pst f N k ≤ pc
          · exact c ((H.mem_seg hpc).mp ⟨h6, h5⟩)
          · have : (f pc).1 < k := by
              have d1 := lt_count_iff (P := fun p => (f p).1 < k) (N := N)
                (fun p q hpq hq h => lt_of_le_of_lt (H.sorted p q hpq hq) h) hpc
              exact d1.mp (not_le.mp h6)
            omega
        exact h4 (lt_of_lt_of_le (lt_of_lt_of_le hpc hp) h2)
    | succ g ih =>
      intro p hg h1 h2 h3
      have hp : p < N := by omega
      unfold spNz
      refine Runs.rd_bind (H.ix p hp) ?_
      by_cases c : (f p).2.1 ≤ i ∧ p < pst f N (k + 1)
      · have hm := (H.mem_seg hp).mp ⟨h1, c.2⟩
        rw [if_pos c]
        by_cases c' : (f p).2.1 = i
        · rw [if_pos c']
          exact Runs.pure ⟨hp, hm, c'⟩
        · rw [if_neg c']
          refine ih (p + 1) (by omega) (by omega) c.2 ?_
          intro q hq hqk hqp
          by_cases e : q = p
          · subst e; omega
          · exact h3 q hq hqk (by omega)
      · rw [if_neg c]
        refine Runs.pure ?_
        intro q hq hqk
        have hqs := (H.mem_seg hq).mpr hqk
        rcases Nat.lt_trichotomy q p with e | e | e
        · exact ne_of_lt (h3 q hq hqk e)
        · subst e
          have : ¬ (f q).2.1 ≤ i := fun x => c ⟨x, hqs.2⟩
          omega
        · have hps : p < pst f N (k + 1) := lt_trans e hqs.2
          have hm := (H.mem_seg hp).mp ⟨h1, hps⟩
          have := S p q e hq (by rw [hm, hqk])
          have : ¬ (f p).2.1 ≤ i := fun x => c ⟨x, hps⟩
          omega
  refine key _ _ rfl (le_refl _) (H.ptr_mono k) ?_
  intro q hq hqk hlt
  exact absurd hlt (not_lt.mpr ((H.mem_seg hq).mpr hqk).1)

theorem addNz_spec (H : Compressed B.ptr B.ix B.v m d N f) (hN : B.nnz = N) (S : Strict N f) (hC : Corner m d N f) (hi : i < d) (hmn : m ≤ n)
    (h : AccIs acc n i T s) (hT : ∀ p, p < N → (f p).2.1 = i → T (f p).1) (beta : α) :
    Runs (addNz beta B m i acc) (fun r => AccIs r n i T (fun c => s c + if c < m then beta * dense N f c i else 0)) := by
  unfold addNz
  refine Runs.bind (accLoop (g := fun j c => if c = j then beta * dense N f j i else 0) (Nat.zero_le _) h ?_) fun r hr =>
    Runs.pure (hr.congr fun c _ => ?_)
  · intro j acc s _ hj h3
    refine Runs.rd_bind (H.ptr j (by omega)) (Runs.rd_bind (H.ptr (j + 1) (by omega)) ?_)
    refine Runs.bind (spNz_find H hN S hC hj hi) fun r hr => ?_
    cases r with
    | none => exact Runs.pure (h3.congr fun c _ => by rw [dense_none hr]; simp)
    | some p =>
      obtain ⟨a, b, e⟩ := hr
      refine Runs.rd_bind (H.v p a) ?_
      have := accAddpos_spec h3 (k := j) (by omega) (by rw [← b]; exact hT p a e) (beta * (f p).2.2)
      refine this.mono fun r hr => hr.congr fun c _ => ?_
      rw [← dense_at S a, b, e]
  · rw [Nat.Ico_zero_eq_range, sum_ite_eq (range m) c]
    simp only [mem_range]

theorem mulNz_spec {X Y : Sp α} (HY : Compressed Y.ptr Y.ix Y.v m d N f) (hN : Y.nnz = N) (S : Strict N f) (hC : Corner m d N f)
    (HX : Compressed X.ptr X.ix X.v m n M g) (hi : i < d)
    (h : AccIs acc n i T s) (hT : ∀ p q, p < N → q < M → (f p).2.1 = i → (f p).1 = (g q).1 → T (g q).2.1) :
    Runs (mulNz Y X m i acc) (fun r => AccIs r n i T (fun c => s c + ∑ l ∈ range m, dense N f l i * dense M g l c)) := by
  unfold mulNz
  refine Runs.bind (accLoop (g := fun j c => dense N f j i * dense M g j c) (Nat.zero_le _) h ?_) fun r hr =>
    Runs.pure (hr.congr fun c _ => by rw [Nat.Ico_zero_eq_range])
  intro j acc s _ hj h3
  refine Runs.rd_bind (HY.ptr j (by omega)) (Runs.rd_bind (HY.ptr (j + 1) (by omega)) ?_)
  refine Runs.bind (spNz_find HY hN S hC hj hi) fun r hr => ?_
  cases r with
  | none => exact Runs.pure (h3.congr fun c _ => by rw [dense_none hr]; simp)
  | some p =>
    obtain ⟨a, b, e⟩ := hr
    refine Runs.rd_bind (HY.v p a) ?_
    refine (accScatter_spec HX hj h3 (fun q hq e' => hT p q a hq e (by omega)) _).mono fun r hr => hr.congr fun c _ => ?_
    rw [← dense_at S a, b, e]

theorem mulTT_spec {X Y : Sp α} {k : Nat} (HY : Compressed Y.ptr Y.ix Y.v m k N f) (HX : Compressed X.ptr X.ix X.v k d M g) (hM : X.nnz = M)
    (S : Strict M g) (hC : Corner k d M g) (hi : i < d) (hmn : m ≤ n)
    (h : AccIs acc n i T s) (hT : ∀ p q, p < N → q < M → (g q).2.1 = i → (f p).2.1 = (g q).1 → T (f p).1) :
    Runs (mulTT Y X m i acc) (fun r => AccIs r n i T (fun c => s c + if c < m then ∑ l ∈ range k, dense M g l i * dense N f c l else 0)) := by
  unfold mulTT
  refine Runs.bind (accLoop (g := fun j c => if c = j then ∑ l ∈ range k, dense M g l i * dense N f j l else 0) (Nat.zero_le _) h ?_) fun r hr =>
    Runs.pure (hr.congr fun c _ => ?_)
  · intro j acc s _ hj h3
    refine Runs.rd_bind (HY.ptr j (by omega)) (Runs.rd_bind (HY.ptr (j + 1) (by omega)) ?_)
    refine Runs.bind (accLoop (g := fun p c => if c = j then dense M g (f p).2.1 i * (f p).2.2 else 0) (HY.ptr_mono j) h3 ?_) fun r hr =>
      Runs.pure (hr.congr fun c _ => ?_)
    · intro p acc s h1 h2 h3
      have hp : p < N := lt_of_lt_of_le h2 (HY.ptr_le _)
      have hm := (HY.mem_seg hp).mp ⟨h1, h2⟩
      have hk := HY.minor p hp
      refine Runs.rd_bind (HY.ix p hp) (Runs.rd_bind (HX.ptr _ (by omega)) (Runs.rd_bind (HX.ptr _ (by omega)) ?_))
      refine Runs.bind (spNz_find HX hM S hC hk hi) fun r hr => ?_
      cases r with
      | none => exact Runs.pure (h3.congr fun c _ => by rw [dense_none hr]; simp)
      | some q =>
        obtain ⟨a, b, e⟩ := hr
        refine Runs.rd_bind (HX.v q a) (Runs.rd_bind (HY.v p hp) ?_)
        refine (accAddpos_spec h3 (k := j) (by omega) (by rw [← hm]; exact hT p q hp a e b.symm) _).mono fun r hr => hr.congr fun c _ => ?_
        rw [← dense_at S a, b, e]
    · congr 1
      by_cases e : c = j
      · simp only [if_pos e]
        rw [sum_seg HY]
        have := sum_dense (N := N) (f := f) (range k) j (fun l => dense M g l i)
        rw [sum_congr rfl (fun l _ => mul_comm (dense M g l i) (dense N f j l)), this]
        refine sum_congr rfl fun p hp => ?_
        by_cases h1 : (f p).1 = j
        · rw [if_pos h1, if_pos ⟨h1, mem_range.mpr (HY.minor p (mem_range.mp hp))⟩, mul_comm]
        · rw [if_neg h1, if_neg (fun h => h1 h.1)]
      · simp only [if_neg e, sum_const_zero]
  · rw [Nat.Ico_zero_eq_range, sum_ite_eq (range m) c]
    simp only [mem_range]

/-! ## Products of rows -/

theorem dotMerge_spec {X Y : Sp α} {mx my j k : Nat} (HX : Compressed X.ptr X.ix X.v mx d N f) (HY : Compressed Y.ptr Y.ix Y.v my d M g)
    (SX : Strict N f) (SY : Strict M g) :
    Runs (dotMerge X Y (pst f N (j + 1)) (pst g M (k + 1)) ((pst f N (j + 1) - pst f N j) + (pst g M (k + 1) - pst g M k)) (pst f N j) (pst g M k) (0, false))
      (fun r => r.1 = ∑ l ∈ range d, dense N f j l * dense M g k l ∧ (r.2 = false → r.1 = 0) ∧
        (r.2 = true → ∃ p q, p < N ∧ q < M ∧ (f p).1 = j ∧ (g q).1 = k ∧ (f p).2.1 = (g q).2.1)) := by
  have key : ∀ c px py (st : α × Bool), (pst f N (j + 1) - px) + (pst g M (k + 1) - py) ≤ c → pst f N j ≤ px → px ≤ pst f N (j + 1) →
      pst g M k ≤ py → st.1 = ∑ p ∈ Ico (pst f N j) px, (f p).2.2 * dense M g k (f p).2.1 → (st.2 = false → st.1 = 0) →
      (st.2 = true → ∃ p q, p < N ∧ q < M ∧ (f p).1 = j ∧ (g q).1 = k ∧ (f p).2.1 = (g q).2.1) →
      (∀ p' q', px ≤ p' → p' < pst f N (j + 1) → q' < M → (g q').1 = k → q' < py → (f p').2.1 ≠ (g q').2.1) →
      Runs (dotMerge X Y (pst f N (j + 1)) (pst g M (k + 1)) c px py st)
      (fun r => r.1 = ∑ l ∈ range d, dense N f j l * dense M g k l ∧ (r.2 = false → r.1 = 0) ∧
        (r.2 = true → ∃ p q, p < N ∧ q < M ∧ (f p).1 = j ∧ (g q).1 = k ∧ (f p).2.1 = (g q).2.1)) := by
    have done : ∀ px py (st : α × Bool), ¬ (px < pst f N (j + 1) ∧ py < pst g M (k + 1)) → pst f N j ≤ px → px ≤ pst f N (j + 1) →
        st.1 = ∑ p ∈ Ico (pst f N j) px, (f p).2.2 * dense M g k (f p).2.1 →
        (∀ p' q', px ≤ p' → p' < pst f N (j + 1) → q' < M → (g q').1 = k → q' < py → (f p').2.1 ≠ (g q').2.1) →
        st.1 = ∑ l ∈ range d, dense N f j l * dense M g k l := by
      intro px py st hc h1 h2 h3 h4
      rw [h3, sum_dense (range d) j (fun l => dense M g k l)]
      have e1 : ∑ p ∈ Ico (pst f N j) px, (f p).2.2 * dense M g k (f p).2.1 =
          ∑ p ∈ Ico (pst f N j) (pst f N (j + 1)), (f p).2.2 * dense M g k (f p).2.1 := by
        rw [← sum_Ico_consecutive _ h1 h2]
        have : ∑ p ∈ Ico px (pst f N (j + 1)), (f p).2.2 * dense M g k (f p).2.1 = 0 := by
          refine sum_eq_zero fun p hp => ?_
          rw [mem_Ico] at hp
          rw [dense_none, mul_zero]
          intro q hq hqk
          have hqs := (HY.mem_seg hq).mpr hqk
          have : ¬ py < pst g M (k + 1) := fun h => hc ⟨lt_of_le_of_lt hp.1 hp.2, h⟩
          exact (h4 p q hp.1 hp.2 hq hqk (lt_of_lt_of_le hqs.2 (not_lt.mp this))).symm
        rw [this, add_zero]
      rw [e1, sum_seg HX]
      refine sum_congr rfl fun p hp => ?_
      by_cases c : (f p).1 = j
      · rw [if_pos c, if_pos ⟨c, mem_range.mpr (HX.minor p (mem_range.mp hp))⟩]
      · rw [if_neg c, if_neg (fun h => c h.1)]
    intro c
    induction c with
    | zero =>
      intro px py st hc h1 h2 h2' h3 h4 h5 h6
      unfold dotMerge
      exact Runs.pure ⟨done px py st (by omega) h1 h2 h3 h6, h4, h5⟩
    | succ c ih =>
      intro px py st hc h1 h2 h2' h3 h4 h5 h6
      unfold dotMerge
      by_cases cc : px < pst f N (j + 1) ∧ py < pst g M (k + 1)
      · rw [if_pos cc]
        have hpN : px < N := lt_of_lt_of_le cc.1 (HX.ptr_le _)
        have hpj := (HX.mem_seg hpN).mp ⟨h1, cc.1⟩
        have hqM : py < M := lt_of_lt_of_le cc.2 (HY.ptr_le _)
        have hqk := (HY.mem_seg hqM).mp ⟨h2', cc.2⟩
        have asc : ∀ p', px < p' → p' < pst f N (j + 1) → (f px).2.1 < (f p').2.1 := fun p' a b => by
          have hp' : p' < N := lt_of_lt_of_le b (HX.ptr_le _)
          exact SX px p' a hp' (by rw [hpj, (HX.mem_seg hp').mp ⟨le_trans h1 (le_of_lt a), b⟩])
        have ascq : ∀ q', py < q' → q' < M → (g q').1 = k → (g py).2.1 < (g q').2.1 := fun q' a b c =>
          SY py q' a b (by rw [hqk, c])
        refine Runs.rd_bind (HX.ix px hpN) (Runs.rd_bind (HY.ix py hqM) ?_)
        by_cases c1 : (f px).2.1 = (g py).2.1
        · rw [if_pos c1]
          refine Runs.rd_bind (HX.v px hpN) (Runs.rd_bind (HY.v py hqM) ?_)
          refine ih (px + 1) (py + 1) _ (by omega) (by omega) (by omega) (by omega) ?_ (fun h => absurd h (by simp))
            (fun _ => ⟨px, py, hpN, hqM, hpj, hqk, c1⟩) ?_
          · dsimp only
            rw [sum_Ico_succ_top h1, ← h3, c1, ← dense_at SY hqM, hqk]
          · intro p' q' a b e1 e2 e3 heq
            by_cases e : q' = py
            · subst e; have := asc p' (by omega) b; omega
            · exact h6 p' q' (by omega) b e1 e2 (by omega) heq
        · rw [if_neg c1]
          by_cases c2 : (f px).2.1 < (g py).2.1
          · rw [if_pos c2]
            refine ih (px + 1) py st (by omega) (by omega) (by omega) h2' ?_ h4 h5 (fun p' q' a b e1 e2 e3 => h6 p' q' (by omega) b e1 e2 e3)
            rw [sum_Ico_succ_top h1, ← h3, dense_none, mul_zero, add_zero]
            intro q' hq' hq'k
            rcases Nat.lt_trichotomy q' py with e | e | e
            · exact (h6 px q' (le_refl _) cc.1 hq' hq'k e).symm
            · subst e; omega
            · have := ascq q' e hq' hq'k; omega
          · rw [if_neg c2]
            refine ih px (py + 1) st (by omega) h1 h2 (by omega) h3 h4 h5 (fun p' q' a b e1 e2 e3 heq => ?_)
            by_cases e : q' = py
            · subst e
              by_cases e4 : p' = px
              · subst e4; exact c1 heq
              · have := asc p' (by omega) b; omega
            · exact h6 p' q' a b e1 e2 (by omega) heq
      · rw [if_neg cc]
        exact Runs.pure ⟨done px py st cc h1 h2 h3 h6, h4, h5⟩
  refine key _ _ _ (0, false) (le_refl _) (le_refl _) (HX.ptr_mono j) (le_refl _) (by simp) (fun _ => rfl) (fun h => absurd h (by simp)) ?_
  intro p' q' _ _ hq hqk hlt
  exact absurd hlt (not_lt.mpr ((HY.mem_seg hq).mpr hqk).1)

theorem accDot_spec {X Y : Sp α} {mx my j k pos : Nat} (HX : Compressed X.ptr X.ix X.v mx d N f) (HY : Compressed Y.ptr Y.ix Y.v my d M g)
    (SX : Strict N f) (SY : Strict M g) (hj : j < mx) (hk : k < my) (h : AccIs acc n i T s) (hpos : pos < n)
    (hT : ∀ p q, p < N → q < M → (f p).1 = j → (g q).1 = k → (f p).2.1 = (g q).2.1 → T pos) :
    Runs (accDot acc pos X j Y k i) (fun r => AccIs r n i T (fun c => s c + if c = pos then ∑ l ∈ range d, dense N f j l * dense M g k l else 0)) := by
  unfold accDot
  refine Runs.rd_bind (HX.ptr j (by omega)) (Runs.rd_bind (HX.ptr (j + 1) (by omega)) (Runs.rd_bind (HY.ptr k (by omega)) (Runs.rd_bind (HY.ptr (k + 1) (by omega)) ?_)))
  refine Runs.bind (dotMerge_spec HX HY SX SY) fun r hr => ?_
  obtain ⟨h1, h2, h3⟩ := hr
  by_cases c : r.2 = false
  · rw [if_pos c]
    refine Runs.pure (h.congr fun c' _ => ?_)
    rw [← h1, h2 c]; simp
  · rw [if_neg c]
    obtain ⟨p, q, a1, a2, a3, a4, a5⟩ := h3 (by simpa using c)
    rw [← h1]
    exact accAddpos_spec h hpos (hT p q a1 a2 a3 a4 a5) _

end Armas
