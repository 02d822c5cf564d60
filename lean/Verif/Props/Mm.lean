import Verif.MmLemmas
import Verif.Demo
import Mathlib.Algebra.Order.Round
import Mathlib.Data.Rat.Floor
import Mathlib.Tactic.NormNum

/-!
# C37: MatrixMarket round trip

The formats `"%.13e"` and `"%lf"` are parameters `fmt` and `scan`; what is asked of them is that reading a
written element gives it back (`scan (fmt v) = v`) and that a written element does not begin with `%`.
-/

namespace Armas.Props

variable {α : Type}

theorem mmLoad_dump [Zero α] {scan : List Int → ScanR α}
    {scan3 : List Int → Option (Option Int × Option Int × Option α)} {fmt : α → List Int} {m : Mem α}
    {A : View} {a : Nat → Nat → α} {symm : Bool} (ab : Nat) (rest : List (List Int)) (hA : Holds m A a)
    (hr : 0 < A.rows) (hc : 0 < A.cols) (hsq : symm = true → A.rows = A.cols)
    (hint : A.rows * A.cols ≤ 2147483647)
    (hints : symm = true → A.cols * (A.cols + 1) ≤ 2147483647)
    (hs : ∀ i j, i < A.rows → j < A.cols → scan (fmt (a i j)) = .val (a i j) ∧ (fmt (a i j)).head? ≠ some 37) :
    ∃ file code B m', mmDump fmt m A symm = .ok file ∧
      mmLoad scan scan3 ab (file ++ rest) = .ok (code, some (B, m'), rest.drop 1) ∧ 0 ≤ code ∧
      B.rows = A.rows ∧ B.cols = A.cols ∧
      Holds m' B (fun i j => if mmLo symm j ≤ i then a i j else 0) := by
  set t : MmType := { matrix := true, real := true, array := true, symm := symm, general := !symm } with ht
  set N := (mmCols (fun i j => fmt (a i j)) A.rows symm 0 A.cols).length with hN
  have hele : mmElems t A.rows A.cols 0 = .ok (N : Int) := by
    unfold mmElems
    rw [if_pos rfl]
    cases symm with
    | false =>
      rw [if_neg (show ¬ t.symm = true by simp [ht])]
      rw [if_pos (by exact_mod_cast hint)]
      rw [hN, mmCols_length_gen]; push_cast; rfl
    | true =>
      rw [if_pos (show t.symm = true by simp [ht])]
      rw [if_pos (by exact_mod_cast hints rfl)]
      have h := mmCols_length_symm (fun i j => fmt (a i j)) A.rows A.cols 0 (by simpa using (hsq rfl).symm)
      rw [← hN] at h
      have h2 : (A.cols : Int) * (A.cols + 1) = 2 * (N : Int) := by exact_mod_cast h.symm
      rw [h2, Int.mul_tdiv_cancel_left _ (by decide)]
  have hinit : initDense (α := α) ab A.rows A.cols = .ok (⟨ab, A.rows, A.rows, A.cols⟩,
      fun p => if ab ≤ p ∧ p < ab + A.rows * A.cols then some 0 else none) := by
    unfold initDense
    rw [if_neg (by omega), if_pos (by exact_mod_cast hint)]
    simp
  have hm0 : MmPart symm A.rows A.cols ⟨ab, A.rows, A.rows, A.cols⟩ a 0 (mmLo symm 0) 0
      (fun p => if ab ≤ p ∧ p < ab + A.rows * A.cols then some (0 : α) else none) := by
    intro i j hi hj
    have hlo : mmLo symm 0 = 0 := by unfold mmLo; split <;> rfl
    rw [if_neg (show ¬ ((j < 0 ∨ (j = 0 ∧ i < mmLo symm 0)) ∧ mmLo symm j ≤ i) by omega)]
    have h1 : (j + 1) * A.rows ≤ A.cols * A.rows := Nat.mul_le_mul_right _ hj
    rw [Nat.add_mul, Nat.mul_comm A.cols] at h1
    exact if_pos ⟨by unfold View.at'; dsimp only; omega, by unfold View.at'; dsimp only; omega⟩
  have hready : MmReady symm A.rows (mmLo symm 0) 0 (⟨0, -1, 0, A.rows, none,
      fun p => if ab ≤ p ∧ p < ab + A.rows * A.cols then some (0 : α) else none⟩ : MmS α) := by
    cases symm with
    | false => exact mmReady_gen hr (by simp [mmLo])
    | true =>
      unfold MmReady mmPos mmLo
      simp only [if_true]
      rw [if_neg (show ¬ ((0 : Int) = A.rows) by omega)]
      refine ⟨rfl, rfl, rfl, by simp⟩
  obtain ⟨s', e, hk, hm⟩ := mmLoop_cols (scan := scan) (scan3 := scan3) (fmt := fmt) (t := t) (ls := rest)
    (nelem := N) (C := A.cols) (A := ⟨ab, A.rows, A.rows, A.cols⟩) rfl rfl rfl rfl hs
    (fun h => (hsq h).ge) hr A.cols 0 _ (by simp) (by rw [Int.zero_add]) hready hm0
  refine ⟨_, t.code, ⟨ab, A.rows, A.rows, A.cols⟩, s'.mem, mmDump_text hA, ?_, ?_, rfl, rfl, ?_⟩
  · unfold mmLoad
    rw [List.cons_append, mmBanner_text]
    dsimp only
    rw [if_neg (by simp), List.cons_append, mmSize_text]
    simp only [Res.ok_bind]
    rw [if_neg (by rintro ⟨h1, h2⟩; exact h2 (by exact_mod_cast hsq h1)), hinit]
    simp only [Res.ok_bind]
    rw [hele]
    simp only [Res.ok_bind]
    rw [e]
    simp only [Res.ok_bind]
    rw [if_neg (by simp [hk])]
  · rw [ht]; cases symm <;> decide
  · intro i j hi hj
    rw [hm i j hi hj]
    congr 1
    exact if_congr ⟨fun h => h.2, fun h => ⟨Or.inl hj, h⟩⟩ rfl rfl

/-- **C37 (part)**: loading what `armas_mmdump` wrote for general storage gives back the dimensions and
every element.  (Full property: also exactly the lines of the matrix are consumed, which is false, see
`C37_consumes_false`: one more line is.) -/
theorem C37_general_partial [Zero α] {scan : List Int → ScanR α}
    {scan3 : List Int → Option (Option Int × Option Int × Option α)} {fmt : α → List Int} {m : Mem α}
    {A : View} {a : Nat → Nat → α} (ab : Nat) (rest : List (List Int)) (hA : Holds m A a)
    (hr : 0 < A.rows) (hc : 0 < A.cols) (hint : A.rows * A.cols ≤ 2147483647)
    (hs : ∀ i j, i < A.rows → j < A.cols → scan (fmt (a i j)) = .val (a i j) ∧ (fmt (a i j)).head? ≠ some 37) :
    ∃ file code B m', mmDump fmt m A false = .ok file ∧
      mmLoad scan scan3 ab (file ++ rest) = .ok (code, some (B, m'), rest.drop 1) ∧ 0 ≤ code ∧
      B.rows = A.rows ∧ B.cols = A.cols ∧ Holds m' B a := by
  obtain ⟨f, c, B, m', h1, h2, h3, h4, h5, h6⟩ := mmLoad_dump (symm := false) (scan3 := scan3) ab rest hA hr hc
    (by simp) hint (by simp) hs
  exact ⟨f, c, B, m', h1, h2, h3, h4, h5, fun i j hi hj => by simpa [mmLo] using h6 i j hi hj⟩

/-- A reader and writer of one-character elements for the examples below. -/
def scanC : List Int → ScanR Int
  | [] => .eof
  | c :: _ => if 48 ≤ c ∧ c ≤ 57 then .val (c - 48) else .nomatch

example := C37_general_partial (α := ℤ) (scan := scanC) (scan3 := fun _ => none) (fmt := fun v => [v + 48])
  (m := tot (fun p => (p : ℤ) % 10)) (A := ⟨0, 5, 3, 2⟩) (a := _) 7 [[1], [2]] (holds_tot _ _)
  (by decide) (by decide) (by decide)
  (by
    intro i j hi hj
    have h1 := Int.emod_nonneg ((⟨0, 5, 3, 2⟩ : View).at' i j : ℤ) (show (10 : ℤ) ≠ 0 by decide)
    have h2 := Int.emod_lt_of_pos ((⟨0, 5, 3, 2⟩ : View).at' i j : ℤ) (show (0 : ℤ) < 10 by decide)
    constructor
    · unfold scanC; dsimp only
      rw [if_pos (by omega)]; simp
    · simp; omega)

/-- **C37 (part)**: with symmetric storage the lower triangle comes back and the rest is zero. -/
theorem C37_symm_partial [Zero α] {scan : List Int → ScanR α}
    {scan3 : List Int → Option (Option Int × Option Int × Option α)} {fmt : α → List Int} {m : Mem α}
    {A : View} {a : Nat → Nat → α} (ab : Nat) (rest : List (List Int)) (hA : Holds m A a)
    (hr : 0 < A.rows) (hsq : A.rows = A.cols) (hint : A.cols * (A.cols + 1) ≤ 2147483647)
    (hs : ∀ i j, i < A.rows → j < A.cols → scan (fmt (a i j)) = .val (a i j) ∧ (fmt (a i j)).head? ≠ some 37) :
    ∃ file code B m', mmDump fmt m A true = .ok file ∧
      mmLoad scan scan3 ab (file ++ rest) = .ok (code, some (B, m'), rest.drop 1) ∧ 0 ≤ code ∧
      B.rows = A.rows ∧ B.cols = A.cols ∧ Holds m' B (fun i j => if j ≤ i then a i j else 0) := by
  obtain ⟨f, c, B, m', h1, h2, h3, h4, h5, h6⟩ := mmLoad_dump (symm := true) (scan3 := scan3) ab rest hA hr
    (by omega) (fun _ => hsq) (by rw [hsq]; nlinarith) (fun _ => hint) hs
  exact ⟨f, c, B, m', h1, h2, h3, h4, h5, fun i j hi hj => by simpa [mmLo] using h6 i j hi hj⟩

example := C37_symm_partial (α := ℤ) (scan := scanC) (scan3 := fun _ => none) (fmt := fun v => [v + 48])
  (m := tot (fun p => (p : ℤ) % 10)) (A := ⟨0, 5, 3, 3⟩) (a := _) 7 [[1], [2]] (holds_tot _ _)
  (by decide) rfl (by decide)
  (by
    intro i j hi hj
    have h1 := Int.emod_nonneg ((⟨0, 5, 3, 3⟩ : View).at' i j : ℤ) (show (10 : ℤ) ≠ 0 by decide)
    have h2 := Int.emod_lt_of_pos ((⟨0, 5, 3, 3⟩ : View).at' i j : ℤ) (show (0 : ℤ) < 10 by decide)
    constructor
    · unfold scanC; dsimp only
      rw [if_pos (by omega)]; simp
    · simp; omega)

/-- **C37 fails (lines consumed)**: the reader always takes one line more than the matrix has, so a second
matrix behind the first in the same file loses its banner.  Two 1×1 matrices are written one after the
other; loading the first leaves a text from which the second cannot be loaded. -/
theorem C37_consumes_false : ∃ file : List (List Int),
    mmDump (fun v : Int => [v + 48]) (fun _ => some 5) ⟨0, 1, 1, 1⟩ false = .ok file ∧
    ((mmLoad scanC (fun _ => none) 0 (file ++ file)).bind (fun r =>
      .ok (r.1, decide (r.2.2 = file.drop 1),
        ((mmLoad scanC (fun _ => none) 0 r.2.2).bind (fun q => .ok q.1))))) =
      .ok (0x226, true, .ok (-1)) := by
  refine ⟨[chars "%%Matrixmarket matrix array real general", chars "1 1", [53]], by decide +kernel, ?_⟩
  decide +kernel

/-- **C37 fails (line not read as a value)**: a line on which no number is found repeats the element before
it, and the load reports success. -/
theorem C37_stale_false :
    ((mmLoad scanC (fun _ => none) 0 [chars "%%Matrixmarket matrix array real general", chars "2 1",
      [53], chars "x"]).bind (fun r => .ok (r.1, r.2.1.map (fun q => (q.2 0, q.2 1))))) =
    .ok (0x226, some (some 5, some 5)) := by decide +kernel

/-- **C37 fails (precision)**: what `C37_general_partial` asks of the formats does not hold of `"%.13e"`.
A text made from 14 significant digits (for `1 ≤ v < 10` from the nearest integer to `v · 10^13`) is the same
for the two doubles `1` and `1 + 2^-52`, so no way of reading gives both of them back. -/
theorem C37_precision_false (fmt : ℚ → List Int) (digits : ℤ → List Int)
    (hf : ∀ v : ℚ, 1 ≤ v → v < 10 → fmt v = digits (round (v * 10 ^ 13))) (scan : List Int → ScanR ℚ) :
    ¬ ((scan (fmt 1) = .val 1) ∧ scan (fmt (1 + 1 / 2 ^ 52)) = .val (1 + 1 / 2 ^ 52)) := by
  rintro ⟨h1, h2⟩
  have e : fmt 1 = fmt (1 + 1 / 2 ^ 52) := by
    rw [hf 1 (by norm_num) (by norm_num), hf (1 + 1 / 2 ^ 52) (by norm_num) (by norm_num)]
    congr 1
    rw [round_eq, round_eq]
    rw [(Int.floor_eq_iff (z := 10 ^ 13)).mpr (by norm_num), (Int.floor_eq_iff (z := 10 ^ 13)).mpr (by norm_num)]
  rw [e, h2] at h1
  have := ScanR.val.inj h1
  norm_num at this

example := C37_precision_false (fun v => [round (v * 10 ^ 13)]) (fun z => [z]) (fun _ _ _ => rfl)

end Armas.Props
