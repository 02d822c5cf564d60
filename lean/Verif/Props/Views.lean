import Verif.Views

/-!
# C01, C02, C03: views, partitions, linear indexing

Specification language of this file:
* `Names parent child f`: element (i,j) of `child` is the memory cell of element `f i j` of
  `parent`, and `f i j` lies inside the parent.
* `BlockAt A B r c nr nc`: `B` is the nr-by-nc block of `A` whose first element is (r,c).
-/

namespace Armas.Props

open Armas

variable {α : Type}

/-- Element (i,j) of `child` is element `f i j` of `parent`. -/
def Names (parent child : View) (f : Nat → Nat → Nat × Nat) : Prop :=
  ∀ i j, i < child.rows → j < child.cols →
    (f i j).1 < parent.rows ∧ (f i j).2 < parent.cols ∧
      child.base + i + j * child.step = parent.base + (f i j).1 + (f i j).2 * parent.step

/-- `B` is the nr-by-nc block of `A` at (r,c). -/
def BlockAt (A B : View) (r c nr nc : Nat) : Prop :=
  B.rows = nr ∧ B.cols = nc ∧ r + nr ≤ A.rows ∧ c + nc ≤ A.cols ∧
    Names A B (fun i j => (r + i, c + j))

theorem blockAt_sub {A : View} {r c nr nc : Nat} (hr : r + nr ≤ A.rows) (hc : c + nc ≤ A.cols) :
    BlockAt A (A.sub r c nr nc) r c nr nc := by
  refine ⟨rfl, rfl, hr, hc, ?_⟩
  intro i j hi hj
  simp only [View.sub_rows, View.sub_cols] at hi hj
  dsimp only
  refine ⟨by omega, by omega, ?_⟩
  have := A.at_sub r c nr nc i j
  simpa only [View.at'] using this

/-! ## C01 -/

/-- C01 (submatrix): with Python-style offsets (`-rows ≤ r < rows`), `nr`/`nc` sizes that fit (or
negative = the rest), the view exists, has the requested size, and its element (i,j) is the parent
element (r+i, c+j). -/
theorem C01_submatrix (B : View) (r c nr nc : Int) (r' c' : Nat)
    (hr : (r' : Int) = if r < 0 then r + B.rows else r)
    (hc : (c' : Int) = if c < 0 then c + B.cols else c)
    (hrb : r' < B.rows) (hcb : c' < B.cols)
    (hnr : r' + nr ≤ B.rows) (hnc : c' + nc ≤ B.cols) :
    ∃ S : View, submatrix B r c nr nc = some S.toI ∧
      (S.rows : Int) = (if nr < 0 then (B.rows : Int) - r' else nr) ∧
      (S.cols : Int) = (if nc < 0 then (B.cols : Int) - c' else nc) ∧
      S.step = B.step ∧ Names B S (fun i j => (r' + i, c' + j)) := by
  have hs : B.size ≠ 0 := by
    simp only [View.size]
    exact Nat.mul_ne_zero (by omega) (by omega)
  refine ⟨B.sub r' c' (if nr < 0 then (B.rows : Int) - r' else nr).toNat
    (if nc < 0 then (B.cols : Int) - c' else nc).toNat, ?_, ?_, ?_, rfl, ?_⟩
  · simp only [submatrix, submatrixExt, hs, if_false, ← hr, ← hc, View.toI, View.sub, Option.some.injEq,
      IView.mk.injEq]
    refine ⟨?_, ?_, ?_, ?_⟩
    · push_cast; ring
    · split <;> omega
    · split <;> omega
    · split <;> omega
  · simp only [View.sub_rows]; split <;> omega
  · simp only [View.sub_cols]; split <;> omega
  · refine (blockAt_sub (A := B) ?_ ?_).2.2.2.2
    · split <;> omega
    · split <;> omega

example : submatrix ⟨7, 5, 4, 6⟩ (-3) 2 (-1) 2 = some (View.toI ⟨18, 5, 3, 2⟩) := by decide

/-- C01 (row view). -/
theorem C01_row (B : View) (r : Int) (r' : Nat)
    (hr : (r' : Int) = if r < 0 then r + B.rows else r) (hrb : r' < B.rows) (hc : 0 < B.cols) :
    ∃ S : View, rowView B r = some S.toI ∧ S.rows = 1 ∧ S.cols = B.cols ∧
      Names B S (fun _ j => (r', j)) := by
  have hs : B.size ≠ 0 := by
    simp only [View.size]
    exact Nat.mul_ne_zero (by omega) (by omega)
  refine ⟨B.row r', ?_, rfl, rfl, ?_⟩
  · simp [rowView, hs, ← hr, View.toI, View.row, View.sub]
  · intro i j hi hj
    change i < 1 at hi
    change j < B.cols at hj
    refine ⟨hrb, hj, ?_⟩
    simp only [View.row, View.sub]; omega

/-- C01 (column view). -/
theorem C01_column (B : View) (c : Int) (c' : Nat)
    (hc : (c' : Int) = if c < 0 then c + B.cols else c) (hcb : c' < B.cols) (hr : 0 < B.rows) :
    ∃ S : View, column B c = some S.toI ∧ S.rows = B.rows ∧ S.cols = 1 ∧
      Names B S (fun i _ => (i, c')) := by
  have hs : B.size ≠ 0 := by
    simp only [View.size]
    exact Nat.mul_ne_zero (by omega) (by omega)
  refine ⟨B.col c', ?_, rfl, rfl, ?_⟩
  · simp [column, hs, ← hc, View.toI, View.col, View.sub]
  · intro i j hi hj
    change i < B.rows at hi
    change j < 1 at hj
    refine ⟨hi, hcb, ?_⟩
    have : j = 0 := by omega
    subst this
    simp only [View.col, View.sub]; omega

example : rowView ⟨7, 5, 4, 6⟩ (-1) = some (View.toI ⟨10, 5, 1, 6⟩) := by decide
example : column ⟨7, 5, 4, 6⟩ 3 = some (View.toI ⟨22, 5, 4, 1⟩) := by decide

/-- C01 (diagonal views): the k-th super (k>0) or sub (k<0) diagonal is a row vector of
`min(rows, cols-k)` resp. `min(rows+k, cols)` elements; element j is parent element (j, k+j) resp.
(-k+j, j). -/
theorem C01_diag (B : View) (k : Int) (hr : 0 < B.rows) (hc : 0 < B.cols)
    (hk : -(B.rows : Int) < k) (hk' : k < B.cols) :
    ∃ S : View, diagView B k = some S.toI ∧ S.rows = 1 ∧
      (S.cols : Int) = min ((B.rows : Int) - max (-k) 0) (B.cols - max k 0) ∧
      Names B S (fun _ j => ((max (-k) 0).toNat + j, (max k 0).toNat + j)) := by
  have hs : B.size ≠ 0 := by
    simp only [View.size]
    exact Nat.mul_ne_zero (by omega) (by omega)
  refine ⟨⟨B.base + (max k 0).toNat * B.step + (max (-k) 0).toNat, B.step + 1, 1,
    (min ((B.rows : Int) - max (-k) 0) (B.cols - max k 0)).toNat⟩, ?_, rfl, ?_, ?_⟩
  · simp only [diagView, submatrixExt, hs, if_false, View.toI]
    rcases lt_trichotomy k 0 with h | h | h
    · have h1 : max k 0 = 0 := by omega
      have h2 : max (-k) 0 = -k := by omega
      have h3 : ¬ k > 0 := by omega
      have h4 : ¬ (-k < 0) := by omega
      have h5 : ¬ ((B.step : Int) + 1 < 0) := by omega
      simp only [h3, h, if_true, if_false, h1, h2, h4, h5, Option.some.injEq, IView.mk.injEq]
      refine ⟨?_, by simp, ?_, ?_⟩
      · simp; omega
      · simp
      · split <;> split <;> omega
    · subst h
      have h5 : ¬ ((B.step : Int) + 1 < 0) := by omega
      simp only [gt_iff_lt, lt_irrefl, if_false, h5, Option.some.injEq, IView.mk.injEq]
      refine ⟨?_, by simp, ?_, ?_⟩
      · simp
      · simp
      · split <;> split <;> omega
    · have h1 : max k 0 = k := by omega
      have h2 : max (-k) 0 = 0 := by omega
      have h3 : k > 0 := by omega
      have h4 : ¬ (k < 0) := by omega
      have h5 : ¬ ((B.step : Int) + 1 < 0) := by omega
      simp only [h3, if_true, if_false, h1, h2, h4, h5, Option.some.injEq, IView.mk.injEq]
      refine ⟨?_, by simp, ?_, ?_⟩
      · have : ((k.toNat : Nat) : Int) = k := by omega
        simp [this]
      · simp
      · split <;> split <;> omega
  · dsimp only; omega
  · intro i j hi hj
    dsimp only at hi hj ⊢
    refine ⟨by omega, by omega, ?_⟩
    have : i = 0 := by omega
    subst this
    ring

example : diagView ⟨7, 5, 4, 6⟩ (-2) = some (View.toI ⟨9, 6, 1, 2⟩) := by decide
example : diagView ⟨7, 5, 4, 6⟩ 3 = some (View.toI ⟨22, 6, 1, 3⟩) := by decide

/-- C01 (subvector): element k of the subvector is element n+k of the vector. -/
theorem C01_subvector (Y : View) (n len : Nat) (hv : Y.isVec) (hl : 0 < len)
    (hn : n + len ≤ Y.size) :
    ∃ S : View, subvector Y n len = some S.toI ∧ S.isVec ∧ S.size = len ∧
      ∀ k, k < len → S.vat k = Y.vat (n + k) := by
  have hs : Y.size ≠ 0 := by omega
  refine ⟨Y.subvec n len, ?_, Y.subvec_isVec n len, Y.subvec_size n len,
    fun k hk => View.subvec_vat hv n len hk⟩
  have h1 : ¬ ((n : Int) < 0) := by omega
  have h2 : ¬ ((len : Int) < 0) := by omega
  have h3 : ¬ ((Y.step : Int) < 0) := by omega
  simp only [subvector, hv, not_true_eq_false, if_false, View.subvec]
  split
  · simp only [submatrix, submatrixExt, hs, if_false, h1, h2, h3, View.toI, View.sub,
      Option.some.injEq, IView.mk.injEq]
    simp
  · simp only [submatrix, submatrixExt, hs, if_false, h1, h2, h3, View.toI, View.sub,
      Option.some.injEq, IView.mk.injEq]
    simp

example : subvector ⟨7, 5, 1, 6⟩ 2 3 = some (View.toI ⟨17, 5, 1, 3⟩) := by decide

/-- C01 (containment, distinctness): every element of a named view is a cell of the parent, and
distinct elements of a submatrix are distinct cells. -/
theorem C01_distinct (B S : View) (r c nr nc : Nat) (h : BlockAt B S r c nr nc) (hw : B.WF)
    {i j i' j' : Nat} (hi : i < S.rows) (hj : j < S.cols) (hi' : i' < S.rows) (hj' : j' < S.cols) :
    S.at' i j ∈ B.foot ∧ (S.at' i j = S.at' i' j' → i = i' ∧ j = j') := by
  obtain ⟨h1, h2, hr, hc, hN⟩ := h
  have e1 := hN i j hi hj
  have e2 := hN i' j' hi' hj'
  constructor
  · exact ⟨r + i, c + j, e1.1, e1.2.1, e1.2.2⟩
  · intro e
    have e3 : B.at' (r + i) (c + j) = B.at' (r + i') (c + j') := by
      simp only [View.at'] at e ⊢
      have := e1.2.2; have := e2.2.2
      simp only at *
      omega
    have := View.at_inj hw e1.1 e1.2.1 e2.1 e2.2.1 e3
    simp only at this
    omega

/-- C01 (nesting): a view of a view is a view of the parent at the added offsets; hence by
induction views of any nesting depth are blocks of the outermost matrix. -/
theorem C01_nested (B S T : View) (r c nr nc r' c' nr' nc' : Nat)
    (h : BlockAt B S r c nr nc) (h' : BlockAt S T r' c' nr' nc') :
    BlockAt B T (r + r') (c + c') nr' nc' := by
  obtain ⟨h1, h2, hr, hc, hN⟩ := h
  obtain ⟨h1', h2', hr', hc', hN'⟩ := h'
  refine ⟨h1', h2', by omega, by omega, ?_⟩
  intro i j hi hj
  have e1 := hN' i j hi hj
  have e2 := hN (r' + i) (c' + j) e1.1 e1.2.1
  simp only [← Nat.add_assoc] at e1 e2 ⊢
  exact ⟨e2.1, e2.2.1, e1.2.2.trans e2.2.2⟩

/-- A chain of nested submatrix views with accumulated offsets. -/
inductive Chain (B : View) : View → Nat → Nat → Prop where
  | refl : Chain B B 0 0
  | step {S T : View} {r c r' c' nr nc : Nat} : Chain B S r c → BlockAt S T r' c' nr nc →
      Chain B T (r + r') (c + c')

/-- C01 (any nesting depth). -/
theorem C01_nested_any (B T : View) (r c : Nat) (h : Chain B T r c) :
    BlockAt B T r c T.rows T.cols := by
  induction h with
  | refl =>
    have := blockAt_sub (A := B) (r := 0) (c := 0) (nr := B.rows) (nc := B.cols) (by omega) (by omega)
    rwa [View.sub_zero] at this
  | step _ hb ih =>
    have := C01_nested _ _ _ _ _ _ _ _ _ _ _ ih hb
    have e1 := hb.1
    have e2 := hb.2.1
    rw [e1, e2]; exact this

/-- C01 (access through a view): `armas_set` on element (i,j) of a submatrix at (r,c) succeeds and
changes exactly parent element (r+i,c+j). -/
theorem C01_write (m : Mem α) (B S : View) (r c nr nc : Nat) (h : BlockAt B S r c nr nc)
    (hw : B.WF) (a : Nat → Nat → α) (hB : Holds m B a) (i j : Nat) (hi : i < S.rows)
    (hj : j < S.cols) (v : α) :
    ∃ m', setElem m S i j v = .ok m' ∧
      Holds m' B (fun p q => if p = r + i ∧ q = c + j then v else a p q) ∧
      ∀ p, p ∉ B.foot → m' p = m p := by
  obtain ⟨h1, h2, hr, hc, hN⟩ := h
  obtain ⟨e1, e2, e3⟩ := hN i j hi hj
  have hs : S.size ≠ 0 := by
    simp only [View.size]
    exact Nat.mul_ne_zero (by omega) (by omega)
  have hcell : (S.base : Int) + ((j : Int) * S.step + i) = (B.at' (r + i) (c + j) : Nat) := by
    simp only [View.at'] at *
    rw [← e3]; push_cast; ring
  refine ⟨m.set (B.at' (r + i) (c + j)) v, ?_, hB.write hw e1 e2 v,
    Frame.set (View.at_mem_foot e1 e2) v⟩
  have n1 : ¬ ((i : Int) < 0) := by omega
  have n2 : ¬ ((j : Int) < 0) := by omega
  simp only [setElem, hs, if_false, n1, n2, hcell, wrI, Int.toNat_natCast]
  rw [if_neg (by omega)]
  exact wr_ok (hB _ _ e1 e2)

/-- C01 (read through a view): also with Python-style negative indices. -/
theorem C01_read [Zero α] (m : Mem α) (B S : View) (r c nr nc : Nat) (h : BlockAt B S r c nr nc)
    (a : Nat → Nat → α) (hB : Holds m B a) (i j : Int) (i' j' : Nat)
    (hi : (i' : Int) = if i < 0 then i + S.rows else i)
    (hj : (j' : Int) = if j < 0 then j + S.cols else j)
    (hi' : i' < S.rows) (hj' : j' < S.cols) :
    getElem m S i j = .ok (a (r + i') (c + j')) := by
  obtain ⟨h1, h2, hr, hc, hN⟩ := h
  obtain ⟨e1, e2, e3⟩ := hN i' j' hi' hj'
  have hs : S.size ≠ 0 := by
    simp only [View.size]
    exact Nat.mul_ne_zero (by omega) (by omega)
  have hcell : (S.base : Int) + ((j' : Int) * S.step + i') = (B.at' (r + i') (c + j') : Nat) := by
    simp only [View.at'] at *
    rw [← e3]; push_cast; ring
  simp only [getElem, hs, if_false, ← hi, ← hj, hcell, rdI, Int.toNat_natCast]
  rw [if_neg (by omega)]
  exact rd_ok (hB _ _ e1 e2)

/-- The hypotheses of the C01 theorems are met: block of a 4x6 matrix with row stride 5. -/
example : BlockAt ⟨7, 5, 4, 6⟩ ⟨18, 5, 3, 2⟩ 1 2 3 2 ∧ View.WF ⟨7, 5, 4, 6⟩ ∧
    Holds (fun p => some p) ⟨7, 5, 4, 6⟩ (fun i j => 7 + i + j * 5) :=
  ⟨blockAt_sub (A := ⟨7, 5, 4, 6⟩) (r := 1) (c := 2) (nr := 3) (nc := 2) (by decide) (by decide),
    Or.inl (by decide), fun _ _ _ _ => rfl⟩

/-! ## C02 -/

/-- The blocks `bs`, each given with its claimed position and size, tile the rows×cols index
rectangle: every index pair lies in exactly one of them. -/
def Tiles (rows cols : Nat) (bs : List (Nat × Nat × Nat × Nat)) : Prop :=
  ∀ i j, i < rows → j < cols →
    (bs.countP fun b => decide (b.1 ≤ i ∧ i < b.1 + b.2.2.1 ∧ b.2.1 ≤ j ∧ j < b.2.1 + b.2.2.2)) = 1

/-- C02 (2x1 split): top block and bottom block are stacked and fill the matrix. -/
theorem C02_partition_2x1 (A : View) (nb : Nat) (top : Bool) :
    let P := partition2x1 A nb top
    let k := if top then min nb A.rows else A.rows - min nb A.rows
    BlockAt A P.1 0 0 k A.cols ∧ BlockAt A P.2 k 0 (A.rows - k) A.cols := by
  cases top
  · simp only [partition2x1, Bool.false_eq_true, if_false]
    by_cases h : nb > A.rows
    · simp only [h, if_true]
      have : min nb A.rows = A.rows := by omega
      rw [this]
      refine ⟨blockAt_sub (by omega) (by omega), ?_⟩
      convert blockAt_sub (A := A) (r := A.rows - A.rows) (c := 0) (nr := A.rows) (nc := A.cols) ?_ ?_ using 1 <;> omega
    · simp only [h, if_false]
      have : min nb A.rows = nb := by omega
      rw [this]
      refine ⟨blockAt_sub (by omega) (by omega), ?_⟩
      convert blockAt_sub (A := A) (r := A.rows - nb) (c := 0) (nr := nb) (nc := A.cols) ?_ ?_ using 1 <;> omega
  · simp only [partition2x1, if_true]
    by_cases h : nb > A.rows
    · simp only [h, if_true]
      have : min nb A.rows = A.rows := by omega
      rw [this]
      exact ⟨blockAt_sub (by omega) (by omega), blockAt_sub (by omega) (by omega)⟩
    · simp only [h, if_false]
      have : min nb A.rows = nb := by omega
      rw [this]
      exact ⟨blockAt_sub (by omega) (by omega), blockAt_sub (by omega) (by omega)⟩

/-- C02 (1x2 split). -/
theorem C02_partition_1x2 (A : View) (nb : Nat) (left : Bool) :
    let P := partition1x2 A nb left
    let k := if left then min nb A.cols else A.cols - min nb A.cols
    BlockAt A P.1 0 0 A.rows k ∧ BlockAt A P.2 0 k A.rows (A.cols - k) := by
  cases left
  · simp only [partition1x2, Bool.false_eq_true, if_false]
    by_cases h : nb > A.cols
    · simp only [h, if_true]
      have : min nb A.cols = A.cols := by omega
      rw [this]
      refine ⟨blockAt_sub (by omega) (by omega), ?_⟩
      convert blockAt_sub (A := A) (r := 0) (c := A.cols - A.cols) (nr := A.rows) (nc := A.cols) ?_ ?_ using 1 <;> omega
    · simp only [h, if_false]
      have : min nb A.cols = nb := by omega
      rw [this]
      refine ⟨blockAt_sub (by omega) (by omega), ?_⟩
      convert blockAt_sub (A := A) (r := 0) (c := A.cols - nb) (nr := A.rows) (nc := nb) ?_ ?_ using 1 <;> omega
  · simp only [partition1x2, if_true]
    by_cases h : nb > A.cols
    · simp only [h, if_true]
      have : min nb A.cols = A.cols := by omega
      rw [this]
      exact ⟨blockAt_sub (by omega) (by omega), blockAt_sub (by omega) (by omega)⟩
    · simp only [h, if_false]
      have : min nb A.cols = nb := by omega
      rw [this]
      exact ⟨blockAt_sub (by omega) (by omega), blockAt_sub (by omega) (by omega)⟩

/-- C02 (3x1 repartition and continue): at position `k` (rows of the top part) the middle block
starts where the finished part ends (or ends where the unfinished part ends), the three blocks are
stacked and fill the matrix, and the continue step moves the middle block into the finished part. -/
theorem C02_step_2x1 (A AT : View) (nb : Nat) (d : Dir) (hk : AT.rows ≤ A.rows) :
    let k := AT.rows
    let P := repartition2x1 AT A nb d
    let b := match d with | .fwd => min nb (A.rows - k) | .bwd => min nb k
    let s := match d with | .fwd => k | .bwd => k - b
    let Q := continue2x1 P.1 P.2.1 A d
    let k' := match d with | .fwd => k + b | .bwd => k - b
    BlockAt A P.1 0 0 s A.cols ∧ BlockAt A P.2.1 s 0 b A.cols ∧
      BlockAt A P.2.2 (s + b) 0 (A.rows - (s + b)) A.cols ∧
      BlockAt A Q.1 0 0 k' A.cols ∧ BlockAt A Q.2 k' 0 (A.rows - k') A.cols := by
  cases d
  · by_cases h : nb + AT.rows > A.rows
    · have : min nb (A.rows - AT.rows) = A.rows - AT.rows := by omega
      simp only [repartition2x1, continue2x1, h, if_true, this, View.sub_rows, Nat.sub_sub]
      exact ⟨blockAt_sub (by omega) (by omega), blockAt_sub (by omega) (by omega),
        blockAt_sub (by omega) (by omega), blockAt_sub (by omega) (by omega),
        blockAt_sub (by omega) (by omega)⟩
    · have : min nb (A.rows - AT.rows) = nb := by omega
      simp only [repartition2x1, continue2x1, h, if_false, this, View.sub_rows, Nat.sub_sub]
      exact ⟨blockAt_sub (by omega) (by omega), blockAt_sub (by omega) (by omega),
        blockAt_sub (by omega) (by omega), blockAt_sub (by omega) (by omega),
        blockAt_sub (by omega) (by omega)⟩
  · by_cases h : AT.rows < nb
    · have : min nb AT.rows = AT.rows := by omega
      have e : AT.rows - AT.rows + AT.rows = AT.rows := by omega
      simp only [repartition2x1, continue2x1, h, if_true, this, View.sub_rows, e]
      exact ⟨blockAt_sub (by omega) (by omega), blockAt_sub (by omega) (by omega),
        blockAt_sub (by omega) (by omega), blockAt_sub (by omega) (by omega),
        blockAt_sub (by omega) (by omega)⟩
    · have : min nb AT.rows = nb := by omega
      have e : AT.rows - nb + nb = AT.rows := by omega
      simp only [repartition2x1, continue2x1, h, if_false, this, View.sub_rows, e]
      exact ⟨blockAt_sub (by omega) (by omega), blockAt_sub (by omega) (by omega),
        blockAt_sub (by omega) (by omega), blockAt_sub (by omega) (by omega),
        blockAt_sub (by omega) (by omega)⟩

/-- C02 (1x3 repartition and continue). -/
theorem C02_step_1x2 (A AL : View) (nb : Nat) (d : Dir) (hk : AL.cols ≤ A.cols) :
    let k := AL.cols
    let P := repartition1x2 AL A nb d
    let b := match d with | .fwd => min nb (A.cols - k) | .bwd => min nb k
    let s := match d with | .fwd => k | .bwd => k - b
    let Q := continue1x2 P.1 P.2.1 A d
    let k' := match d with | .fwd => k + b | .bwd => k - b
    BlockAt A P.1 0 0 A.rows s ∧ BlockAt A P.2.1 0 s A.rows b ∧
      BlockAt A P.2.2 0 (s + b) A.rows (A.cols - (s + b)) ∧
      BlockAt A Q.1 0 0 A.rows k' ∧ BlockAt A Q.2 0 k' A.rows (A.cols - k') := by
  cases d
  · by_cases h : AL.cols + nb > A.cols
    · have : min nb (A.cols - AL.cols) = A.cols - AL.cols := by omega
      simp only [repartition1x2, continue1x2, h, if_true, this, View.sub_cols, Nat.sub_sub]
      exact ⟨blockAt_sub (by omega) (by omega), blockAt_sub (by omega) (by omega),
        blockAt_sub (by omega) (by omega), blockAt_sub (by omega) (by omega),
        blockAt_sub (by omega) (by omega)⟩
    · have : min nb (A.cols - AL.cols) = nb := by omega
      simp only [repartition1x2, continue1x2, h, if_false, this, View.sub_cols, Nat.sub_sub]
      exact ⟨blockAt_sub (by omega) (by omega), blockAt_sub (by omega) (by omega),
        blockAt_sub (by omega) (by omega), blockAt_sub (by omega) (by omega),
        blockAt_sub (by omega) (by omega)⟩
  · by_cases h : nb > AL.cols
    · have : min nb AL.cols = AL.cols := by omega
      have e : AL.cols - AL.cols + AL.cols = AL.cols := by omega
      simp only [repartition1x2, continue1x2, h, if_true, this, View.sub_cols, e]
      exact ⟨blockAt_sub (by omega) (by omega), blockAt_sub (by omega) (by omega),
        blockAt_sub (by omega) (by omega), blockAt_sub (by omega) (by omega),
        blockAt_sub (by omega) (by omega)⟩
    · have : min nb AL.cols = nb := by omega
      have e : AL.cols - nb + nb = AL.cols := by omega
      simp only [repartition1x2, continue1x2, h, if_false, this, View.sub_cols, e]
      exact ⟨blockAt_sub (by omega) (by omega), blockAt_sub (by omega) (by omega),
        blockAt_sub (by omega) (by omega), blockAt_sub (by omega) (by omega),
        blockAt_sub (by omega) (by omega)⟩

/-- The quad `q` splits `A` at row `kr` and column `kc`. -/
def SplitAt (A : View) (q : Quad) (kr kc : Nat) : Prop :=
  BlockAt A q.tl 0 0 kr kc ∧ BlockAt A q.tr 0 kc kr (A.cols - kc) ∧
  BlockAt A q.bl kr 0 (A.rows - kr) kc ∧ BlockAt A q.br kr kc (A.rows - kr) (A.cols - kc)

/-- The nine blocks split `A` at rows `r0 ≤ r0+b` and columns `c0 ≤ c0+b`. -/
def SplitAt3 (A : View) (n : Nine) (r0 c0 b : Nat) : Prop :=
  BlockAt A n.a00 0 0 r0 c0 ∧ BlockAt A n.a01 0 c0 r0 b ∧
  BlockAt A n.a02 0 (c0 + b) r0 (A.cols - (c0 + b)) ∧
  BlockAt A n.a10 r0 0 b c0 ∧ BlockAt A n.a11 r0 c0 b b ∧
  BlockAt A n.a12 r0 (c0 + b) b (A.cols - (c0 + b)) ∧
  BlockAt A n.a20 (r0 + b) 0 (A.rows - (r0 + b)) c0 ∧
  BlockAt A n.a21 (r0 + b) c0 (A.rows - (r0 + b)) b ∧
  BlockAt A n.a22 (r0 + b) (c0 + b) (A.rows - (r0 + b)) (A.cols - (c0 + b))

/-- C02 (2x2 split) for block sizes not larger than the matrix. -/
theorem C02_partition_2x2 (A : View) (mb nb : Nat) (side : Dir) (hm : mb ≤ A.rows)
    (hn : nb ≤ A.cols) :
    SplitAt A (partition2x2 A mb nb side)
      (match side with | .fwd => mb | .bwd => A.rows - mb)
      (match side with | .fwd => nb | .bwd => A.cols - nb) := by
  cases side
  · exact ⟨blockAt_sub (by omega) (by omega), blockAt_sub (by omega) (by omega),
      blockAt_sub (by omega) (by omega), blockAt_sub (by omega) (by omega)⟩
  · have e1 : A.rows - (A.rows - mb) = mb := by omega
    have e2 : A.cols - (A.cols - nb) = nb := by omega
    simp only [SplitAt, partition2x2, e1, e2]
    exact ⟨blockAt_sub (by omega) (by omega), blockAt_sub (by omega) (by omega),
      blockAt_sub (by omega) (by omega), blockAt_sub (by omega) (by omega)⟩

/-- C02 (the four blocks of a split tile the index space). -/
theorem C02_split_tiles (A : View) (kr kc : Nat) (hr : kr ≤ A.rows) (hc : kc ≤ A.cols) :
    Tiles A.rows A.cols [(0, 0, kr, kc), (0, kc, kr, A.cols - kc), (kr, 0, A.rows - kr, kc),
      (kr, kc, A.rows - kr, A.cols - kc)] := by
  intro i j hi hj
  have b1 : i < kr + (A.rows - kr) := by omega
  have b2 : j < kc + (A.cols - kc) := by omega
  have f1 : (i < kr ∧ ¬ kr ≤ i) ∨ (¬ i < kr ∧ kr ≤ i) := by omega
  have f2 : (j < kc ∧ ¬ kc ≤ j) ∨ (¬ j < kc ∧ kc ≤ j) := by omega
  rcases f1 with ⟨h1, h2⟩ | ⟨h1, h2⟩ <;> rcases f2 with ⟨h3, h4⟩ | ⟨h3, h4⟩
  all_goals simp [List.countP_cons, b1, b2, h1, h2, h3, h4]

/-- C02 (repartition to 3x3, both directions). -/
theorem C02_repartition_3x3 (A ATL : View) (nb : Nat) (d : Dir) (hr : ATL.rows ≤ A.rows)
    (hc : ATL.cols ≤ A.cols) :
    let b := match d with
      | .fwd => min nb (min (A.rows - ATL.rows) (A.cols - ATL.cols))
      | .bwd => min nb (min ATL.rows ATL.cols)
    SplitAt3 A (repartition2x2 ATL A nb d)
      (match d with | .fwd => ATL.rows | .bwd => ATL.rows - b)
      (match d with | .fwd => ATL.cols | .bwd => ATL.cols - b) b := by
  cases d
  · simp only [repartition2x2]
    set b1 := if ATL.cols + nb > A.cols then A.cols - ATL.cols else nb with hb1
    set b := if ATL.rows + b1 > A.rows then A.rows - ATL.rows else b1 with hb
    have e : min nb (min (A.rows - ATL.rows) (A.cols - ATL.cols)) = b := by
      rw [hb, hb1]; split_ifs <;> omega
    have l1 : ATL.rows + b ≤ A.rows := by omega
    have l2 : ATL.cols + b ≤ A.cols := by omega
    rw [e]
    simp only [SplitAt3, Nat.sub_sub]
    refine ⟨?_, ?_, ?_, ?_, ?_, ?_, ?_, ?_, ?_⟩ <;> exact blockAt_sub (by omega) (by omega)
  · simp only [repartition2x2]
    set b1 := if nb > ATL.cols then ATL.cols else nb with hb1
    set b := if b1 > ATL.rows then ATL.rows else b1 with hb
    have e : min nb (min ATL.rows ATL.cols) = b := by
      rw [hb, hb1]; split_ifs <;> omega
    have l1 : b ≤ ATL.rows := by omega
    have l2 : b ≤ ATL.cols := by omega
    rw [e]
    have e1 : ATL.rows - b + b = ATL.rows := by omega
    have e2 : ATL.cols - b + b = ATL.cols := by omega
    simp only [SplitAt3, e1, e2]
    refine ⟨?_, ?_, ?_, ?_, ?_, ?_, ?_, ?_, ?_⟩ <;> exact blockAt_sub (by omega) (by omega)

/-- C02 (the nine blocks tile the index space). -/
theorem C02_split3_tiles (A : View) (r0 c0 b : Nat) (hr : r0 + b ≤ A.rows) (hc : c0 + b ≤ A.cols) :
    Tiles A.rows A.cols [(0, 0, r0, c0), (0, c0, r0, b), (0, c0 + b, r0, A.cols - (c0 + b)),
      (r0, 0, b, c0), (r0, c0, b, b), (r0, c0 + b, b, A.cols - (c0 + b)),
      (r0 + b, 0, A.rows - (r0 + b), c0), (r0 + b, c0, A.rows - (r0 + b), b),
      (r0 + b, c0 + b, A.rows - (r0 + b), A.cols - (c0 + b))] := by
  intro i j hi hj
  have b1 : i < r0 + b + (A.rows - (r0 + b)) := by omega
  have b2 : j < c0 + b + (A.cols - (c0 + b)) := by omega
  have f1 : (i < r0 ∧ ¬ r0 ≤ i ∧ i < r0 + b ∧ ¬ r0 + b ≤ i) ∨
      (¬ i < r0 ∧ r0 ≤ i ∧ i < r0 + b ∧ ¬ r0 + b ≤ i) ∨
      (¬ i < r0 ∧ r0 ≤ i ∧ ¬ i < r0 + b ∧ r0 + b ≤ i) := by omega
  have f2 : (j < c0 ∧ ¬ c0 ≤ j ∧ j < c0 + b ∧ ¬ c0 + b ≤ j) ∨
      (¬ j < c0 ∧ c0 ≤ j ∧ j < c0 + b ∧ ¬ c0 + b ≤ j) ∨
      (¬ j < c0 ∧ c0 ≤ j ∧ ¬ j < c0 + b ∧ c0 + b ≤ j) := by omega
  rcases f1 with ⟨h1, h2, h3, h4⟩ | ⟨h1, h2, h3, h4⟩ | ⟨h1, h2, h3, h4⟩ <;>
    rcases f2 with ⟨h5, h6, h7, h8⟩ | ⟨h5, h6, h7, h8⟩ | ⟨h5, h6, h7, h8⟩
  all_goals simp only [List.countP_cons, List.countP_nil, Nat.zero_le, Nat.zero_add, true_and,
    and_true, and_false, false_and, decide_true, decide_false, b1, b2, h1, h2, h3, h4, h5, h6, h7, h8,
    if_true, Bool.false_eq_true, if_false]

/-- C02 (continue, forward): the middle block joins the top-left part. -/
theorem C02_continue_fwd (A : View) (n : Nine) (r0 c0 b : Nat) (h : SplitAt3 A n r0 c0 b) :
    SplitAt A (continue3x3 n.a00 n.a11 A .fwd) (r0 + b) (c0 + b) := by
  obtain ⟨h00, -, -, -, h11, -⟩ := h
  obtain ⟨e1, e2, -⟩ := h00
  obtain ⟨e3, e4, e5, e6, -⟩ := h11
  simp only [SplitAt, continue3x3, e1, e2, e4, Nat.sub_sub]
  refine ⟨?_, ?_, ?_, ?_⟩ <;> exact blockAt_sub (by omega) (by omega)

/-- C02 (continue, backward): all blocks except the bottom-left one are right.  What is missing
for the full claim is false, see `C02_continue_bwd_false`. -/
theorem C02_continue_bwd_partial (A : View) (n : Nine) (r0 c0 b : Nat) (h : SplitAt3 A n r0 c0 b) :
    let q := continue3x3 n.a00 n.a11 A .bwd
    BlockAt A q.tl 0 0 r0 c0 ∧ BlockAt A q.tr 0 c0 r0 (A.cols - c0) ∧
      BlockAt A q.br r0 c0 (A.rows - r0) (A.cols - c0) := by
  obtain ⟨h00, -, -, -, h11, -⟩ := h
  obtain ⟨e1, e2, -⟩ := h00
  obtain ⟨e3, e4, e5, e6, -⟩ := h11
  simp only [continue3x3, e1, e2]
  refine ⟨?_, ?_, ?_⟩ <;> exact blockAt_sub (by omega) (by omega)

/-- C02 is false of the code for the bottom-left block in the backward direction: in a 3x3 matrix
after one backward step of block size 1, the block below the 2x2 top-left part has one column
instead of two (`src/include/partition.h:492`). -/
theorem C02_continue_bwd_false :
    ∃ (A : View) (n : Nine) (r0 c0 b : Nat), SplitAt3 A n r0 c0 b ∧
      ¬ SplitAt A (continue3x3 n.a00 n.a11 A .bwd) r0 c0 := by
  refine ⟨⟨0, 3, 3, 3⟩, repartition2x2 ⟨0, 3, 3, 3⟩ ⟨0, 3, 3, 3⟩ 1 .bwd, 2, 2, 1,
    C02_repartition_3x3 ⟨0, 3, 3, 3⟩ ⟨0, 3, 3, 3⟩ 1 .bwd (le_refl _) (le_refl _), ?_⟩
  rintro ⟨-, -, h, -⟩
  have := h.2.1
  revert this
  decide

/-- The diagonal blocks `l` follow each other from (r,c), each starting where the previous one
ended, up to diagonal position `r' - r` further on. -/
inductive DiagRun (A : View) : Nat → Nat → List View → Nat → Nat → Prop where
  | nil (r c : Nat) : DiagRun A r c [] r c
  | cons {B : View} {r c b : Nat} {l : List View} {r' c' : Nat} : 0 < b → BlockAt A B r c b b →
      DiagRun A (r + b) (c + b) l r' c' → DiagRun A r c (B :: l) r' c'

/-- C02 (forward traversal): starting from an empty finished part the loop ends, for every block
size ≥ 1, and the blocks visited follow each other without gap or overlap along the diagonal from
(0,0) to the end of the diagonal. -/
theorem C02_traverse_fwd (A : View) (nb : Nat) (hnb : 0 < nb) :
    ∃ fuel l q, walkFwd A nb (partition2x2 A 0 0 .fwd) fuel = .ok (l, q) ∧
      DiagRun A 0 0 l (min A.rows A.cols) (min A.rows A.cols) := by
  have main : ∀ d k q, min A.rows A.cols - k = d → k ≤ min A.rows A.cols → SplitAt A q k k →
      ∃ l q', walkFwd A nb q (d + 1) = .ok (l, q') ∧
        DiagRun A k k l (min A.rows A.cols) (min A.rows A.cols) := by
    intro d
    induction d using Nat.strong_induction_on with
    | _ d ih =>
      intro k q hd hk hq
      have hbr := hq.2.2.2
      have htl := hq.1
      by_cases hc : q.br.rows > 0 ∧ q.br.cols > 0
      · have hrows : 0 < A.rows - k := by rw [← hbr.1]; exact hc.1
        have hcols : 0 < A.cols - k := by rw [← hbr.2.1]; exact hc.2
        have hrep := C02_repartition_3x3 A q.tl nb .fwd (by rw [htl.1]; omega) (by rw [htl.2.1]; omega)
        simp only [htl.1, htl.2.1] at hrep
        set b := min nb (min (A.rows - k) (A.cols - k)) with hb
        have hb0 : 0 < b := by omega
        have hcont := C02_continue_fwd A _ _ _ _ hrep
        obtain ⟨l, q', e, hrun⟩ := ih (d - b) (by omega) (k + b) _ (by omega) (by omega) hcont
        -- enough fuel
        have mono : ∀ f q l q', walkFwd A nb q f = .ok (l, q') → walkFwd A nb q (f + 1) = .ok (l, q') := by
          intro f
          induction f with
          | zero => intro q l q' h; simp [walkFwd] at h
          | succ f ihf =>
            intro q l q' h
            rw [walkFwd] at h ⊢
            split at h
            · rename_i hcond
              rw [if_pos hcond]
              dsimp only at h ⊢
              cases hw : walkFwd A nb (continue3x3 (repartition2x2 q.tl A nb .fwd).a00
                (repartition2x2 q.tl A nb .fwd).a11 A .fwd) f with
              | ok x =>
                obtain ⟨l1, q1⟩ := x
                rw [hw] at h
                rw [ihf _ _ _ hw]
                exact h
              | ub => rw [hw] at h; simp at h
              | diverge => rw [hw] at h; simp at h
            · rename_i hcond
              rw [if_neg hcond]; exact h
        have mono' : ∀ g f q l q', walkFwd A nb q f = .ok (l, q') →
            walkFwd A nb q (f + g) = .ok (l, q') := by
          intro g
          induction g with
          | zero => intro f q l q' h; exact h
          | succ g ihg => intro f q l q' h; exact mono _ _ _ _ (ihg _ _ _ _ h)
        have e2 := mono' (b - 1) _ _ _ _ e
        have : d - b + 1 + (b - 1) = d := by omega
        rw [this] at e2
        refine ⟨(repartition2x2 q.tl A nb .fwd).a11 :: l, q', ?_, ?_⟩
        · rw [walkFwd, if_pos hc]
          simp [e2]
        · exact .cons hb0 hrep.2.2.2.2.1 hrun
      · have : k = min A.rows A.cols := by
          have h1 := hbr.1
          have h2 := hbr.2.1
          omega
        refine ⟨[], q, ?_, ?_⟩
        · rw [walkFwd, if_neg hc]
        · rw [← this]; exact .nil k k
  obtain ⟨l, q, e, h⟩ := main _ 0 _ rfl (by omega)
    (C02_partition_2x2 A 0 0 .fwd (by omega) (by omega))
  exact ⟨_, l, q, e, h⟩

/-- Diagonal blocks visited backward: each ends where the previous one started. -/
inductive DiagRunBack (A : View) : Nat → Nat → List View → Nat → Nat → Prop where
  | nil (r c : Nat) : DiagRunBack A r c [] r c
  | cons {B : View} {r c b : Nat} {l : List View} {r' c' : Nat} : 0 < b → BlockAt A B r c b b →
      DiagRunBack A r c l r' c' → DiagRunBack A (r + b) (c + b) (B :: l) r' c'

/-- C02 (backward traversal): from (rows, cols) the loop ends for every block size ≥ 1, the blocks
visited follow each other up the (bottom-right aligned) diagonal until a matrix edge is reached. -/
theorem C02_traverse_bwd (A : View) (nb : Nat) (hnb : 0 < nb) :
    ∃ fuel l q, walkBwd A nb (partition2x2 A 0 0 .bwd) fuel = .ok (l, q) ∧
      DiagRunBack A A.rows A.cols l (A.rows - min A.rows A.cols) (A.cols - min A.rows A.cols) := by
  have main : ∀ d kr kc (q : Quad), min kr kc = d → kr ≤ A.rows → kc ≤ A.cols →
      BlockAt A q.tl 0 0 kr kc →
      ∃ l q', walkBwd A nb q (d + 1) = .ok (l, q') ∧ DiagRunBack A kr kc l (kr - d) (kc - d) := by
    intro d
    induction d using Nat.strong_induction_on with
    | _ d ih =>
      intro kr kc q hd hr hc' htl
      by_cases hc : q.tl.rows > 0 ∧ q.tl.cols > 0
      · rw [htl.1, htl.2.1] at hc
        have hrep := C02_repartition_3x3 A q.tl nb .bwd (by rw [htl.1]; omega) (by rw [htl.2.1]; omega)
        simp only [htl.1, htl.2.1] at hrep
        set b := min nb (min kr kc) with hb
        have hb0 : 0 < b := by omega
        have hcont := (C02_continue_bwd_partial A _ _ _ _ hrep).1
        obtain ⟨l, q', e, hrun⟩ := ih (d - b) (by omega) (kr - b) (kc - b)
          (continue3x3 (repartition2x2 q.tl A nb .bwd).a00 (repartition2x2 q.tl A nb .bwd).a11 A .bwd)
          (by omega) (by omega) (by omega) hcont
        have mono : ∀ f q l q', walkBwd A nb q f = .ok (l, q') → walkBwd A nb q (f + 1) = .ok (l, q') := by
          intro f
          induction f with
          | zero => intro q l q' h; simp [walkBwd] at h
          | succ f ihf =>
            intro q l q' h
            rw [walkBwd] at h ⊢
            split at h
            · rename_i hcond
              rw [if_pos hcond]
              dsimp only at h ⊢
              cases hw : walkBwd A nb (continue3x3 (repartition2x2 q.tl A nb .bwd).a00
                (repartition2x2 q.tl A nb .bwd).a11 A .bwd) f with
              | ok x =>
                obtain ⟨l1, q1⟩ := x
                rw [hw] at h
                rw [ihf _ _ _ hw]
                exact h
              | ub => rw [hw] at h; simp at h
              | diverge => rw [hw] at h; simp at h
            · rename_i hcond
              rw [if_neg hcond]; exact h
        have mono' : ∀ g f q l q', walkBwd A nb q f = .ok (l, q') →
            walkBwd A nb q (f + g) = .ok (l, q') := by
          intro g
          induction g with
          | zero => intro f q l q' h; exact h
          | succ g ihg => intro f q l q' h; exact mono _ _ _ _ (ihg _ _ _ _ h)
        have e2 := mono' (b - 1) _ _ _ _ e
        have : d - b + 1 + (b - 1) = d := by omega
        rw [this] at e2
        refine ⟨(repartition2x2 q.tl A nb .bwd).a11 :: l, q', ?_, ?_⟩
        · rw [walkBwd, if_pos (by rw [htl.1, htl.2.1]; exact hc)]
          simp [e2]
        · have h1 : kr - b + b = kr := by omega
          have h2 : kc - b + b = kc := by omega
          have h3 : kr - d = kr - b - (d - b) := by omega
          have h4 : kc - d = kc - b - (d - b) := by omega
          have := DiagRunBack.cons hb0 hrep.2.2.2.2.1 hrun
          rw [h1, h2] at this
          rw [h3, h4]; exact this
      · rw [htl.1, htl.2.1] at hc
        have h0 : d = 0 := by omega
        subst h0
        refine ⟨[], q, ?_, .nil kr kc⟩
        rw [walkBwd, if_neg (by rw [htl.1, htl.2.1]; exact hc)]
  have hp := C02_partition_2x2 A 0 0 .bwd (by omega) (by omega)
  obtain ⟨l, q, e, h⟩ := main _ A.rows A.cols _ rfl (le_refl _) (le_refl _) hp.1
  exact ⟨_, l, q, e, h⟩

/-- A block size of zero (never passed by the library) would loop forever. -/
example : ∀ fuel, walkFwd ⟨0, 3, 3, 3⟩ 0 (partition2x2 ⟨0, 3, 3, 3⟩ 0 0 .fwd) fuel = .diverge := by
  intro fuel
  induction fuel with
  | zero => rfl
  | succ n ih =>
    rw [walkFwd, if_pos (by decide)]
    have : continue3x3 (repartition2x2 (partition2x2 ⟨0, 3, 3, 3⟩ 0 0 .fwd).tl ⟨0, 3, 3, 3⟩ 0 .fwd).a00
        (repartition2x2 (partition2x2 ⟨0, 3, 3, 3⟩ 0 0 .fwd).tl ⟨0, 3, 3, 3⟩ 0 .fwd).a11 ⟨0, 3, 3, 3⟩ .fwd
        = partition2x2 ⟨0, 3, 3, 3⟩ 0 0 .fwd := by decide
    simp only [this, ih, Res.diverge_bind]

/-! ## C03 -/

/-- C03 (which element): linear index `k` (negative counts from the end) names element
(k mod rows, k div rows), for every stride. -/
theorem C03_index (V : View) (k : Nat) (hk : k < V.size) :
    realIndex V k = ((k % V.rows : Nat) : Int) + (k / V.rows : Nat) * V.step := by
  have hr : 0 < V.rows := by
    rcases Nat.eq_zero_or_pos V.rows with h | h
    · simp [View.size, h] at hk
    · exact h
  simp only [realIndex]
  split
  · rename_i h
    rcases h with h | h
    · have : k < V.rows := by simpa [View.size, h] using hk
      rw [Nat.mod_eq_of_lt this, Nat.div_eq_of_lt this]; simp
    · rw [h]
      have := Nat.mod_add_div k V.rows
      have h2 : (k : Int) = ((k % V.rows + V.rows * (k / V.rows) : Nat) : Int) := by rw [this]
      rw [h2]; push_cast
      have e1 : ((k : Int) % V.rows + V.rows * (k / V.rows)) = k := Int.emod_add_mul_ediv _ _
      rw [e1]
      linarith [Int.emod_add_mul_ediv (k : Int) V.rows, mul_comm (V.rows : Int) (k / V.rows)]
  · rw [Int.tdiv_eq_ediv_of_nonneg (by omega), Int.tmod_eq_emod_of_nonneg (by omega)]
    push_cast; ring

/-- C03 (read). -/
theorem C03_get_at [Zero α] (m : Mem α) (V : View) (a : Nat → Nat → α) (h : Holds m V a)
    (ix : Int) (k : Nat) (hk : (k : Int) = if ix < 0 then ix + V.size else ix) (hks : k < V.size) :
    getAt m V ix = .ok (a (k % V.rows) (k / V.rows)) := by
  have hr : 0 < V.rows := by
    rcases Nat.eq_zero_or_pos V.rows with h | h
    · simp [View.size, h] at hks
    · exact h
  have h1 : k % V.rows < V.rows := Nat.mod_lt _ hr
  have h2 : k / V.rows < V.cols := Nat.div_lt_of_lt_mul hks
  have hs : V.size ≠ 0 := by omega
  have e : (V.base : Int) + realIndex V k = (V.at' (k % V.rows) (k / V.rows) : Nat) := by
    rw [C03_index V k hks]; simp only [View.at']; push_cast; ring
  simp only [getAt, hs, if_false, ← hk, e, rdI, Int.toNat_natCast]
  rw [if_neg (by omega)]
  exact rd_ok (h _ _ h1 h2)

/-- C03 (write): changes exactly that element. -/
theorem C03_set_at (m : Mem α) (V : View) (hw : V.WF) (a : Nat → Nat → α) (h : Holds m V a)
    (ix : Int) (k : Nat) (hk : (k : Int) = if ix < 0 then ix + V.size else ix) (hks : k < V.size)
    (v : α) :
    ∃ m', setAt m V ix v = .ok m' ∧
      Holds m' V (fun i j => if i = k % V.rows ∧ j = k / V.rows then v else a i j) ∧
      ∀ p, p ∉ V.foot → m' p = m p := by
  have hr : 0 < V.rows := by
    rcases Nat.eq_zero_or_pos V.rows with h | h
    · simp [View.size, h] at hks
    · exact h
  have h1 : k % V.rows < V.rows := Nat.mod_lt _ hr
  have h2 : k / V.rows < V.cols := Nat.div_lt_of_lt_mul hks
  have hs : V.size ≠ 0 := by omega
  have e : (V.base : Int) + realIndex V k = (V.at' (k % V.rows) (k / V.rows) : Nat) := by
    rw [C03_index V k hks]; simp only [View.at']; push_cast; ring
  refine ⟨m.set (V.at' (k % V.rows) (k / V.rows)) v, ?_, h.write hw h1 h2 v,
    Frame.set (View.at_mem_foot h1 h2) v⟩
  simp only [setAt, hs, if_false, ← hk, e, wrI, Int.toNat_natCast]
  rw [if_neg (by omega)]
  exact wr_ok (h _ _ h1 h2)

/-- C03 (enumeration): the linear index is a bijection between `0 … size-1` and the elements. -/
theorem C03_bijective (V : View) (i j : Nat) (hi : i < V.rows) (hj : j < V.cols) :
    ∃ k, (k < V.size ∧ k % V.rows = i ∧ k / V.rows = j) ∧
      ∀ k', k' < V.size → k' % V.rows = i → k' / V.rows = j → k' = k := by
  refine ⟨i + V.rows * j, ⟨?_, ?_, ?_⟩, ?_⟩
  · simp only [View.size]
    calc i + V.rows * j < V.rows * (j + 1) := by rw [Nat.mul_add]; omega
      _ ≤ V.rows * V.cols := Nat.mul_le_mul_left _ hj
  · rw [Nat.add_mul_mod_self_left, Nat.mod_eq_of_lt hi]
  · rw [Nat.add_mul_div_left _ _ (by omega), Nat.div_eq_of_lt hi, Nat.zero_add]
  · intro k' _ h1 h2
    rw [← h1, ← h2, Nat.mod_add_div]

/-- C03 (write then read): what was written through index `ix` is what the next read through
any spelling of the same index returns, and reads through other indices are unaffected. -/
theorem C03_set_get [Zero α] (m : Mem α) (V : View) (hw : V.WF) (a : Nat → Nat → α)
    (h : Holds m V a) (ix ix' : Int) (k k' : Nat)
    (hk : (k : Int) = if ix < 0 then ix + V.size else ix) (hks : k < V.size)
    (hk' : (k' : Int) = if ix' < 0 then ix' + V.size else ix') (hks' : k' < V.size) (v : α) :
    ∃ m', setAt m V ix v = .ok m' ∧
      getAt m' V ix' = if k' = k then .ok v else getAt m V ix' := by
  obtain ⟨m', e, hH, -⟩ := C03_set_at m V hw a h ix k hk hks v
  refine ⟨m', e, ?_⟩
  rw [C03_get_at m' V _ hH ix' k' hk' hks', C03_get_at m V a h ix' k' hk' hks']
  by_cases hkk : k' = k
  · subst hkk; simp
  · rw [if_neg hkk, if_neg]
    rintro ⟨e1, e2⟩
    apply hkk
    rw [← Nat.mod_add_div k' V.rows, ← Nat.mod_add_div k V.rows, e1, e2]

/-- Hypotheses of the C03 theorems on a 3x2 matrix with row stride 4. -/
example : View.WF ⟨2, 4, 3, 2⟩ ∧ Holds (fun p => some (p : Int)) ⟨2, 4, 3, 2⟩
      (fun i j => ((2 + i + j * 4 : Nat) : Int)) ∧ 4 < View.size ⟨2, 4, 3, 2⟩ ∧
    getAt (fun p => some (p : Int)) ⟨2, 4, 3, 2⟩ (-2) = .ok 7 :=
  ⟨Or.inl (by decide), fun _ _ _ _ => rfl, by decide, by decide⟩

end Armas.Props
