import Verif.Json

/-!
# Dense MatrixMarket files (src/io/iomm.c), real element types

Simplifications:
* a file is the list of its lines without the newline characters; every line ends with a newline and
  contains no NUL character;
* `fprintf("%.13e")` is a parameter `fmt`, `sscanf("%lf")` a parameter `scan`;
* reading and writing do not fail, `getline` gets its memory.
-/

namespace Armas

/-- The type bits of a file (`src/include/armas.h:157-168`), one field for each. -/
structure MmType where
  matrix : Bool := false
  real : Bool := false
  complex : Bool := false
  array : Bool := false
  coord : Bool := false
  symm : Bool := false
  herm : Bool := false
  general : Bool := false
deriving DecidableEq, Repr

/-- The integer `typecode` of the bits (`src/include/armas.h:157-168`). -/
def MmType.code (t : MmType) : Int :=
  (if t.matrix then 0x2 else 0) + (if t.real then 0x4 else 0) + (if t.complex then 0x8 else 0) +
  (if t.array then 0x20 else 0) + (if t.coord then 0x40 else 0) + (if t.symm then 0x80 else 0) +
  (if t.herm then 0x100 else 0) + (if t.general then 0x200 else 0)

/-- Keys (`src/io/iomm.c:90-102`). -/
inductive MmKey where
  | matrix | real | complex | integer | array | coordinate | symmetric | hermitian | general | header
deriving DecidableEq, Repr

/-- Characters of an ASCII string. -/
def chars (s : String) : List Int := s.toList.map (fun c => (c.toNat : Int))

/-- `find_key` (`src/io/iomm.c:129-136`) with the table of lines 90-102: the compared length includes the
terminating NUL (whole word) except for "general" (prefix). -/
def findKey (w : List Int) : Option MmKey :=
  if w = chars "matrix" then some .matrix
  else if w = chars "real" then some .real
  else if w = chars "complex" then some .complex
  else if w = chars "integer" then some .integer
  else if w = chars "array" then some .array
  else if w = chars "coordinate" then some .coordinate
  else if w = chars "symmetric" then some .symmetric
  else if w = chars "hermitian" then some .hermitian
  else if (chars "general").isPrefixOf w then some .general
  else if w = chars "%%matrixmarket" then some .header
  else none

/-- `tolower` (C locale) of `strlower` (`src/io/iomm.c:139-145`). -/
def toLower (c : Int) : Int := if 65 ≤ c ∧ c ≤ 90 then c + 32 else c

/-- The tokens `strsep(&s, " ")` gives one after the other (`src/io/iomm.c:171`). -/
def splitSp : List Int → List (List Int)
  | [] => [[]]
  | c :: r =>
    if c = 32 then [] :: splitSp r
    else match splitSp r with
      | [] => [[c]]
      | w :: ws => (c :: w) :: ws

/-- The switch on the token number in `__mmread_banner` (`src/io/iomm.c:173-206`): `none` = error; the
flag is `ready`. -/
def bannerTok (n : Nat) (k : Option MmKey) (t : MmType) : Option (MmType × Bool) :=
  match n with
  | 0 => if k = some .header then some (t, false) else none
  | 1 => if k = some .matrix then some ({ t with matrix := true }, false) else none
  | 2 => if k = some .array then some ({ t with array := true }, false)
         else if k = some .coordinate then some ({ t with coord := true }, false) else none
  | 3 => if k = some .real then some ({ t with real := true }, false)
         else if k = some .complex then some ({ t with complex := true }, false) else none
  | 4 => if k = some .symmetric then some ({ t with symm := true }, true)
         else if k = some .hermitian then some ({ t with herm := true }, true)
         else if k = some .general then some ({ t with general := true }, true) else none
  | _ => some (t, true)

/-- The token loop of `__mmread_banner` (`src/io/iomm.c:168-207`). -/
def bannerLoop : Nat → List (List Int) → MmType → Option MmType
  | _, [], t => some t
  | n, w :: ws, t =>
    match bannerTok n (findKey (w.map toLower)) t with
    | none => none
    | some (t, true) => some t
    | some (t, false) => bannerLoop (n + 1) ws t

/-- `__mmread_banner` (`src/io/iomm.c:152-210`): type and remaining lines, or an error.  `fgets` reads at
most 511 characters, the rest of a longer line stays in the file.  The test for `%%` fails only if
neither of the first two characters is `%`. -/
def mmBanner : List (List Int) → Option (MmType × List (List Int))
  | [] => none
  | l :: ls =>
    let (w, ls) := if l.length + 1 ≤ 511 then (l, ls) else (l.take 511, l.drop 511 :: ls)
    if w.head? ≠ some 37 ∧ (w.drop 1).head? ≠ some 37 then none
    else match bannerLoop 0 (splitSp w) {} with
      | none => none
      | some t => some (t, ls)

/-- `strtol(cp, &endptr, 10)`: value and the text at `endptr` (`src/io/iomm.c:229-234`); without digits
the value is 0 and `endptr = cp`.  Values are assumed to fit. -/
def strtol (l : List Int) : Int × List Int :=
  let d := l.dropWhile (fun c => decide (c = 32 ∨ (9 ≤ c ∧ c ≤ 13)))
  match d with
  | [] => (0, l)
  | c :: r =>
    if c = 45 ∨ c = 43 then
      if (r.takeWhile isDigit).isEmpty then (0, l)
      else ((if c = 45 then - digitsVal (r.takeWhile isDigit) else digitsVal (r.takeWhile isDigit)),
        r.dropWhile isDigit)
    else if (d.takeWhile isDigit).isEmpty then (0, l)
    else (digitsVal (d.takeWhile isDigit), d.dropWhile isDigit)

/-- `cp = endptr + 1`: past the terminating NUL is undefined behaviour (`src/io/iomm.c:230,233`). -/
def skip1 : List Int → Res (List Int)
  | [] => .ub
  | _ :: r => .ok r

/-- The size line (`src/io/iomm.c:227-240`): rows, columns, non-zeros. -/
def mmSizeLine (l : List Int) (coord : Bool) : Res (Int × Int × Int) :=
  match l ++ [10] with
  | [] => .ub
  | c :: r =>
    if (c = 32 ∨ (9 ≤ c ∧ c ≤ 13)) ∨ isDigit c = true then do
      let (m, e) := strtol (c :: r)
      let e ← skip1 e
      let (n, e) := strtol e
      if coord then do
        let e ← skip1 e
        .ok (m, n, (strtol e).1)
      else .ok (m, n, 0)
    else .ok (0, 0, 0)

/-- `__mmread_size` (`src/io/iomm.c:215-243`): comment lines are skipped; at the end of the file the last
line read is used, and with no line at all the contents of the buffer are undefined. -/
def mmSize (coord : Bool) : Option (List Int) → List (List Int) → Res ((Int × Int × Int) × List (List Int))
  | none, [] => .ub
  | some l, [] => do
    let s ← mmSizeLine l coord
    .ok (s, [])
  | _, l :: ls =>
    if l.head? = some 37 then mmSize coord (some l) ls
    else do
      let s ← mmSizeLine l coord
      .ok (s, ls)

/-- Result of `sscanf` with one conversion: end of input before it (−1), no match (0), a value (1). -/
inductive ScanR (α : Type) where
  | eof
  | nomatch
  | val (v : α)

/-- Local variables of the loop of `armas_mmload` (`src/io/iomm.c:264-298`); `v = none`: not set yet. -/
structure MmS (α : Type) where
  k : Int
  r : Int
  c : Int
  nc : Int
  v : Option α
  mem : Mem α

/-- Position of the next element of an array file (`src/io/iomm.c:307-321`).  `m = 0` does not occur in the
remainder: no element is expected then. -/
def mmPos {α : Type} (symm : Bool) (m : Int) (s : MmS α) : MmS α :=
  if symm then
    let s := if s.k = s.nc then { s with c := s.c + 1, nc := s.nc + (m - (s.c + 1)), r := s.c } else s
    { s with r := s.r + 1 }
  else { s with r := s.k.tmod m, c := s.k.tdiv m }

/-- `if (r >= 0 && …) armas_set_unsafe(A, r, c, v); k++` (`src/io/iomm.c:329-331`); storing a value never
set is undefined behaviour. -/
def mmStore {α : Type} (A : View) (s : MmS α) : Res (MmS α) :=
  if 0 ≤ s.r ∧ s.r < A.rows ∧ 0 ≤ s.c ∧ s.c < A.cols then
    match s.v with
    | none => .ub
    | some v => do
      let mem ← wr s.mem (A.at' s.r.toNat s.c.toNat) v
      .ok { s with mem := mem, k := s.k + 1 }
  else .ok { s with k := s.k + 1 }

/-- A data line (`src/io/iomm.c:302-331`); `none` = `goto endloop`.  `scan3` is `sscanf("%d %d %lf")` for
coordinate files: `none` = −1, else the values converted. -/
def mmLine {α : Type} (scan : List Int → ScanR α)
    (scan3 : List Int → Option (Option Int × Option Int × Option α)) (t : MmType) (m : Int) (A : View)
    (l : List Int) (s : MmS α) : Res (Option (MmS α)) :=
  if t.array then
    match scan l with
    | .eof => .ok none
    | .nomatch => do
      let s ← mmStore A (mmPos t.symm m s)
      .ok (some s)
    | .val v => do
      let s ← mmStore A (mmPos t.symm m { s with v := some v })
      .ok (some s)
  else
    match scan3 l with
    | none => .ok none
    | some (r, c, v) => do
      let s ← mmStore A { s with r := r.getD s.r - 1, c := c.getD s.c - 1, v := v <|> s.v }
      .ok (some s)

/-- The loop `while (getline(…) != -1 && k < nelem)` (`src/io/iomm.c:299-332`): a line is read before the
counter is tested.  Returns the state and the lines left. -/
def mmLoop {α : Type} (scan : List Int → ScanR α)
    (scan3 : List Int → Option (Option Int × Option Int × Option α)) (t : MmType) (m : Int) (A : View)
    (nelem : Int) : List (List Int) → MmS α → Res (MmS α × List (List Int))
  | [], s => .ok (s, [])
  | l :: ls, s =>
    if s.k < nelem then
      if l.head? = some 37 then mmLoop scan scan3 t m A nelem ls s
      else do
        match ← mmLine scan scan3 t m A l s with
        | none => .ok (s, ls)
        | some s => mmLoop scan scan3 t m A nelem ls s
    else .ok (s, ls)

/-- Number of elements to expect (`src/io/iomm.c:290-292`); an `int` overflow is undefined behaviour. -/
def mmElems (t : MmType) (m n nnz : Int) : Res Int :=
  if t.array then
    if t.symm then
      if n * (n + 1) ≤ 2147483647 then .ok ((n * (n + 1)).tdiv 2) else .ub
    else if m * n ≤ 2147483647 then .ok (m * n) else .ub
  else .ok nnz

/-- `armas_mmload(A, &flags, f)` (`src/io/iomm.c:262-343`): return value, matrix, storage (allocated at
cell `ab`), lines left.  `*flags` is never assigned. -/
def mmLoad {α : Type} [Zero α] (scan : List Int → ScanR α)
    (scan3 : List Int → Option (Option Int × Option Int × Option α)) (ab : Nat) (file : List (List Int)) :
    Res (Int × Option (View × Mem α) × List (List Int)) :=
  match mmBanner file with
  | none => .ok (-1, none, file.drop 1)
  | some (t, ls) =>
    if ¬ (t.matrix ∧ t.real) then .ok (-1, none, ls)
    else do
      let ((m, n, nnz), ls) ← mmSize t.coord none ls
      if t.symm ∧ m ≠ n then .ok (-1, none, ls)
      else do
        let (A, mem) ← initDense ab m n
        let nelem ← mmElems t m n nnz
        let (s, ls) ← mmLoop scan scan3 t m A nelem ls ⟨0, -1, 0, m, none, mem⟩
        .ok (if s.k ≠ nelem then -1 else t.code, some (A, s.mem), ls)

/-- `armas_mmdump(f, A, flags)` (`src/io/iomm.c:346-367`): the lines written. -/
def mmDump {α : Type} (fmt : α → List Int) (m : Mem α) (A : View) (symm : Bool) : Res (List (List Int)) := do
  let banner := chars "%%Matrixmarket matrix array real " ++
    (if symm then chars "symmetric" else chars "general")
  let size := intText A.rows ++ 32 :: intText A.cols
  let (_, o) ← forUp 0 A.cols 1 (fun j o => do
    let (_, o) ← forUp (if symm then j else 0) A.rows 1 (fun k o => do
      let v ← rd m (A.at' k j)
      .ok (o ++ [fmt v])) o
    .ok o) []
  .ok (banner :: size :: o)

end Armas
