import Verif.JsonMat
import Verif.Demo

/-!
# C34, C35, C36: JSON input and output

`readToken m b len inp` is `armas_json_read_token` with a buffer of `len` bytes at cell `b`.
-/

namespace Armas.Props

/-- Whether a run is undefined behaviour. -/
def ubR {β : Type} : Res β → Bool
  | .ub => true
  | _ => false

/-! ## C34 -/

/-- C34: on every input the tokenizer ends, changes no memory outside its buffer, leaves a NUL inside
the buffer when the token has a text (a string or a number), leaves the buffer alone for the other
tokens, never reads beyond the input, and consumes input unless it reports the end of input.
The text of a number is a contiguous, complete piece of the input: it ends where the rest starts. -/
theorem C34_token {m : Mem Int} {b len : Nat} {inp : List Int} (hlen : 1 ≤ len)
    (hbuf : ∀ k, k < len → ∃ v, m (b + k) = some v) :
    ∃ t rest m', readToken m b len inp = .ok (t, rest, m') ∧
      (∀ p, ¬ (b ≤ p ∧ p < b + len) → m' p = m p) ∧
      (t = .string ∨ t = .number → ∃ n, n + 2 ≤ len ∧ m' (b + n) = some 0) ∧
      ((∃ c, t = .ch c) ∨ t = .tru ∨ t = .fls ∨ t = .null → m' = m) ∧
      (t = .number → ∃ p0 txt r', inp = p0 ++ txt ++ r' ∧ (r' = rest ∨ ∃ c, c < 0 ∧ r' = c :: rest) ∧
        txt.length + 2 ≤ len ∧ (∀ i, (h : i < txt.length) → m' (b + i) = some txt[i]) ∧
        m' (b + txt.length) = some 0) ∧
      rest <:+ inp ∧ (t ≠ .eof → rest.length < inp.length) := by
  obtain ⟨⟨t, rest, m'⟩, e, h⟩ := readToken_post (inp := inp) hlen hbuf
  refine ⟨t, rest, m', e, fun p hp => h.frame p hp, ?_, h.same, ?_, h.suff, h.less⟩
  · rintro (e | e)
    · exact h.str e
    · obtain ⟨_, txt, _, _, _, h1, _, h2, _⟩ := h.num e
      exact ⟨txt.length, h1, h2⟩
  · intro e
    obtain ⟨p0, txt, r', h1, h2, h3, h4, h5, _⟩ := h.num e
    exact ⟨p0, txt, r', h1, h2, h3, h4, h5⟩

-- `{"a` into a buffer of 3 bytes at cell 5
example := C34_token (m := tot (fun p => (p : Int))) (b := 5) (len := 3) (inp := [123, 34, 97])
  (by decide) (fun k _ => ⟨_, rfl⟩)

/-- C34: a string of `t.length` characters is returned in full when there is room for it, for the NUL
and for one more character; otherwise it is reported as too big. -/
theorem C34_string {m : Mem Int} {b len : Nat} {ws raw t rest : List Int} (hlen : 2 ≤ len)
    (hbuf : ∀ k, k < len → ∃ v, m (b + k) = some v)
    (hws : ∀ c ∈ ws, c = 32 ∨ c = 10 ∨ c = 9 ∨ c = 13) (ht : StrEnc raw t) :
    (t.length + 2 ≤ len → ∃ m', readToken m b len (ws ++ 34 :: (raw ++ 34 :: rest)) = .ok (.string, rest, m') ∧
        (∀ i, (h : i < t.length) → m' (b + i) = some t[i]) ∧ m' (b + t.length) = some 0) ∧
      (len < t.length + 2 →
        ∃ rest' m', readToken m b len (ws ++ 34 :: (raw ++ 34 :: rest)) = .ok (.e2big, rest', m')) := by
  rcases readToken_string (rest := rest) hbuf hlen hws ht with ⟨h, m', e, hs⟩ | ⟨h, e⟩
  · exact ⟨fun _ => ⟨m', e, hs.text, hs.nul⟩, fun h' => by omega⟩
  · exact ⟨fun h' => by omega, fun _ => e⟩

-- the string `a\n"` (written ` "a\n\""`) and the rest `,`
example := C34_string (m := tot (fun p => (p : Int))) (b := 5) (len := 5) (ws := [32])
  (raw := [97, 92, 110, 92, 34]) (t := [97, 10, 34]) (rest := [44]) (by decide) (fun k _ => ⟨_, rfl⟩)
  (by decide) (.plain (by decide) (by decide) (by decide) (by decide)
    (.esc (by unfold Esc; decide) (.esc (by unfold Esc; decide) .nil)))

/-- C34: the same for numbers. -/
theorem C34_number {m : Mem Int} {b len : Nat} {ws l rest : List Int} {c : Int} (hlen : 2 ≤ len)
    (hbuf : ∀ k, k < len → ∃ v, m (b + k) = some v)
    (hws : ∀ c ∈ ws, c = 32 ∨ c = 10 ∨ c = 9 ∨ c = 13) (hl : JNum l)
    (hc : c = 44 ∨ c = 93 ∨ c = 125 ∨ c = 32 ∨ c = 10 ∨ c = 13 ∨ c = 9) :
    (l.length + 2 ≤ len → ∃ m', readToken m b len (ws ++ (l ++ c :: rest)) = .ok (.number, c :: rest, m') ∧
        (∀ i, (h : i < l.length) → m' (b + i) = some l[i]) ∧ m' (b + l.length) = some 0) ∧
      (len < l.length + 2 →
        ∃ rest' m', readToken m b len (ws ++ (l ++ c :: rest)) = .ok (.e2big, rest', m')) := by
  rcases readToken_number (rest := rest) hbuf hlen hws hl (show endsNum c = true by simpa [endsNum] using hc)
    with ⟨h, m', e, hs⟩ | ⟨h, e⟩
  · exact ⟨fun _ => ⟨m', e, hs.text, hs.nul⟩, fun h' => by omega⟩
  · exact ⟨fun h' => by omega, fun _ => e⟩

/-- `-12.5e+3` is a number. -/
theorem jnum_demo : JNum [45, 49, 50, 46, 53, 101, 43, 51] :=
  ⟨[45], [49, 50], [46, 53], [101, 43, 51], rfl, Or.inr rfl, ⟨by simp, by decide⟩,
    Or.inr ⟨[53], rfl, by decide⟩, Or.inr ⟨101, [43], [51], rfl, Or.inl rfl, Or.inr (Or.inl rfl), by simp, by decide⟩⟩

example := C34_number (m := tot (fun p => (p : Int))) (b := 5) (len := 9) (ws := [10])
  (rest := [93]) (c := 44) (by decide) (fun k _ => ⟨_, rfl⟩) (by decide) jnum_demo (Or.inl rfl)

/-- C34, the precondition is needed: with `len = 0` the bound `len-1` wraps around and the tokenizer
writes to a buffer of no bytes. -/
theorem C34_len_zero : ubR (readToken (fun _ => none) 0 0 [49]) = true := by decide

/-! ## C35 -/

/-- C35: for every matrix (any size with `rows*cols` in `int`, any stride) whose elements are finite
and print to JSON numbers that scan back to them, `armas_json_read` of what `armas_json_write` wrote
gives a matrix of the same size with the same elements and stops right behind the text. -/
theorem C35_matrix {α : Type} [Zero α] {fin : α → Bool} {fmt : α → List Int} {scan : List Int → α}
    {m : Mem α} {A : View} {a : Nat → Nat → α} {flags : Int} {iob : Mem Int} {b ab fuel : Nat}
    (hA : Holds m A a) (hr : A.rows ≤ 2147483647) (hc : A.cols ≤ 2147483647)
    (hrc : A.rows * A.cols ≤ 2147483647) (hfl : -2147483648 ≤ flags ∧ flags ≤ 2147483647)
    (hfin : ∀ i j, i < A.rows → j < A.cols → fin (a i j) = true)
    (hnum : ∀ i j, i < A.rows → j < A.cols → JNum (fmt (a i j)) ∧ (fmt (a i j)).length ≤ 62)
    (hscan : ∀ i j, i < A.rows → j < A.cols → scan (fmt (a i j)) = a i j)
    (hiob : ∀ k, k < 64 → ∃ v, iob (b + k) = some v) (hfuel : 16 ≤ fuel) :
    ∃ txt, jsonWrite fin fmt m A flags = .ok txt ∧ ∀ rest, ∃ A' m',
      jsonRead scan fuel iob b ab (txt ++ rest) = .ok (.mat A' m', rest) ∧ A'.rows = A.rows ∧
        A'.cols = A.cols ∧ A'.WF ∧ Holds m' A' a := by
  obtain ⟨txt, e, h⟩ := jsonWrite_text (fin := fin) (fmt := fmt) (flags := flags) hA
  refine ⟨txt, e, fun rest => ?_⟩
  rw [h rest]
  refine jsonRead_text hiob hfuel ⟨by omega, by omega⟩ ⟨by omega, by omega⟩ hfl ⟨by omega, by omega⟩ ?_
  intro k hk
  have h0 : 0 < A.rows := by
    rcases Nat.eq_zero_or_pos A.rows with h | h
    · rw [h] at hk; omega
    · exact h
  have h1 : k % A.rows < A.rows := Nat.mod_lt _ h0
  have h2 : k / A.rows < A.cols := Nat.div_lt_of_lt_mul hk
  simp only [writeNum, hfin _ _ h1 h2, if_true]
  exact ⟨(hnum _ _ h1 h2).1, (hnum _ _ h1 h2).2, hscan _ _ h1 h2⟩

/-- A one-digit number format for the examples. -/
def fmt1 (v : Int) : List Int := intText (v % 10)
/-- Its inverse on 0..9. -/
def scan1 (l : List Int) : Int := atoiVal l

-- a 2 × 3 matrix with stride 4, elements 0..9
example := C35_matrix (α := Int) (fin := fun _ => true) (fmt := fmt1) (scan := scan1)
  (m := tot (fun p => ((p % 10 : Nat) : Int))) (A := ⟨7, 4, 2, 3⟩) (a := fun i j => (((7 + i + j * 4) % 10 : Nat) : Int))
  (flags := 2) (iob := tot (fun _ => 0)) (b := 0) (ab := 100) (fuel := 16)
  (fun i j _ _ => rfl) (by decide) (by decide) (by decide) (by decide) (fun _ _ _ _ => rfl)
  (fun i j _ _ => ⟨intText_num _, (intText_length (v := _) ⟨by omega, by omega⟩).trans (by decide)⟩)
  (fun i j hi hj => by
    have h : ∀ i, i < 2 → ∀ j, j < 3 → scan1 (fmt1 (((7 + i + j * 4) % 10 : Nat) : Int)) =
      (((7 + i + j * 4) % 10 : Nat) : Int) := by decide +kernel
    exact h i hi j hj)
  (fun k _ => ⟨_, rfl⟩) (by decide)

/-- C35: `"%d"` and `atoi`, which carry the sizes, are inverse for every `int`. -/
theorem C35_int {v : Int} (h : -2147483648 ≤ v ∧ v ≤ 2147483647) : atoi (intText v) = .ok v :=
  atoi_intText h

example := C35_int (v := -2147483648) (by decide)

/-- Characters that survive: printable ASCII and backspace, tab, newline, carriage return. -/
def Survives (c : Int) : Prop := (32 ≤ c ∧ c ≤ 126) ∨ c = 8 ∨ c = 9 ∨ c = 10 ∨ c = 13

theorem writeChars_enc : ∀ (s : List Int) {len : Nat}, s.length ≤ len → (∀ c ∈ s, Survives c) →
    ∃ raw, writeChars s len = .ok raw ∧ StrEnc raw s := by
  intro s
  induction s with
  | nil => intro len _ _; exact ⟨[], by simp [writeChars], .nil⟩
  | cons c s ih =>
    intro len hl hs
    obtain ⟨len, rfl⟩ : ∃ k, len = k + 1 := ⟨len - 1, by simp at hl; omega⟩
    obtain ⟨raw, e, h⟩ := ih (len := len) (by simpa using hl) (fun c hc => hs c (by simp [hc]))
    have hc := hs c (by simp)
    have E : ∀ x, writeChar c = .ok [92, x] → Esc x c → ∃ raw, writeChars (c :: s) (len + 1) = .ok raw ∧
        StrEnc raw (c :: s) := fun x ex hx => ⟨92 :: x :: raw, by simp [writeChars, ex, e], .esc hx h⟩
    by_cases h9 : c = 9
    · exact E 116 (by simp [writeChar, h9]) (by unfold Esc; omega)
    by_cases h13 : c = 13
    · exact E 114 (by simp [writeChar, h13]) (by unfold Esc; omega)
    by_cases h10 : c = 10
    · exact E 110 (by simp [writeChar, h10]) (by unfold Esc; omega)
    by_cases h8 : c = 8
    · exact E 98 (by simp [writeChar, h8]) (by unfold Esc; omega)
    by_cases h92 : c = 92
    · exact E 92 (by simp [writeChar, h92]) (by unfold Esc; omega)
    by_cases h47 : c = 47
    · exact E 47 (by simp [writeChar, h47]) (by unfold Esc; omega)
    by_cases h34 : c = 34
    · exact E 34 (by simp [writeChar, h34]) (by unfold Esc; omega)
    unfold Survives at hc
    have hcn : isCntrl c = false := by simp [isCntrl]; omega
    have h0 : ¬ c < 0 := by omega
    exact ⟨c :: raw, by simp [writeChars, writeChar, h9, h13, h10, h8, h92, h47, h34, hcn, h0, e],
      .plain (by omega) (by omega) h34 h92 h⟩

/-- C35 for strings, partial: a string of printable ASCII characters, backspace, tab, newline and
carriage return reads back unchanged.  Missing: other control characters are dropped by the writer
(`C35_string_false`) and characters outside ASCII make the writer call `iscntrl` outside its domain. -/
theorem C35_string_partial {m : Mem Int} {b len : Nat} {s rest : List Int} {n : Nat}
    (hn : s.length ≤ n) (hs : ∀ c ∈ s, Survives c) (hlen : s.length + 2 ≤ len)
    (hbuf : ∀ k, k < len → ∃ v, m (b + k) = some v) :
    ∃ txt m', writeString s n = .ok txt ∧ readToken m b len (txt ++ rest) = .ok (.string, rest, m') ∧
      (∀ i, (h : i < s.length) → m' (b + i) = some s[i]) ∧ m' (b + s.length) = some 0 := by
  obtain ⟨raw, e, h⟩ := writeChars_enc s hn hs
  obtain ⟨m', e', h1, h2⟩ := (C34_string (ws := []) (rest := rest) (by omega) hbuf (by simp) h).1 hlen
  refine ⟨34 :: (raw ++ [34]), m', by simp [writeString, e], ?_, h1, h2⟩
  rw [← e']; simp

-- `a "b"\` and a tab
example := C35_string_partial (m := tot (fun p => (p : Int))) (b := 5) (len := 20) (n := 9)
  (s := [97, 32, 34, 98, 34, 92, 9]) (rest := [44]) (by decide) (by unfold Survives; decide) (by decide)
  (fun k _ => ⟨_, rfl⟩)

/-- Result of writing a string and reading it back into a buffer of 64 bytes: token, first byte. -/
def strRound (s : List Int) : Option (JTok × Option Int) :=
  match writeString s s.length with
  | .ok txt => match readToken (fun p => if p < 64 then some 7 else none) 0 64 txt with
    | .ok (t, _, m) => some (t, m 0)
    | _ => none
  | _ => none

/-- C35 is false for strings with other control characters: the character 1 is not written, so the
string "\\x01" reads back as the empty string. -/
theorem C35_string_false : strRound [1] = some (.string, some 0) := by decide +kernel

/-- Error code of reading back a 1 × 1 matrix with element 5, where `fin` says which values are
finite; `none` when it can be read. -/
def matRound (fin : Int → Bool) : Option Int :=
  match jsonWrite (α := Int) fin fmt1 (tot (fun _ => 5)) ⟨0, 1, 1, 1⟩ 0 with
  | .ok txt => match jsonRead (α := Int) scan1 16 (fun p => if p < 64 then some 0 else none) 0 0 txt with
    | .ok (.err c, _) => some c
    | _ => none
  | _ => none

/-- C35: a non-finite element writes nothing, and the text cannot be read back (error −1), while the
finite element can. -/
theorem C35_nonfinite_false : matRound (fun _ => false) = some (-1) ∧ matRound (fun _ => true) = none := by
  decide +kernel

/-- Token and first byte read from a text with a buffer of 64 bytes. -/
def tokOf (txt : List Int) : Option (JTok × Option Int) :=
  match readToken (fun p => if p < 64 then some 7 else none) 0 64 txt with
  | .ok (t, _, m) => some (t, m 0)
  | _ => none

/-- The string `"\\u0041"` of a JSON text (the letter A, code 65) reads as character 41: the four
hexadecimal digits are converted as a decimal number. -/
theorem C35_unicode_false : tokOf [34, 92, 117, 48, 48, 52, 49, 34] = some (.string, some 41) := by
  decide +kernel

/-! ## C36 -/

/-- C36, partial: a document `{"rows":R,"cols":C,"data":[[i,j,v],…]}` whose triplets have
`i ≠ R` and `j ≠ C` gives the R × C matrix whose element (i,j) is the last value given for it and zero
if there is none; triplets outside the matrix have no effect.  Missing: triplets with `i = R` or
`j = C`, for which it is false (`C36_row_false`, `C36_col_false`). -/
theorem C36_coord_partial {α : Type} [Zero α] {fmt : α → List Int} {scan : List Int → α}
    {rows cols : Nat} {ts : List (Int × Int × α)} {iob : Mem Int} {b ab fuel : Nat} {rest : List Int}
    (hr : 0 < rows) (hc : 0 < cols) (hrc : rows * cols ≤ 2147483647) (hts : ts ≠ [])
    (hint : ∀ t ∈ ts, (-2147483648 ≤ t.1 ∧ t.1 ≤ 2147483647) ∧ (-2147483648 ≤ t.2.1 ∧ t.2.1 ≤ 2147483647))
    (hnum : ∀ t ∈ ts, JNum (fmt t.2.2) ∧ (fmt t.2.2).length ≤ 62 ∧ scan (fmt t.2.2) = t.2.2)
    (hin : ∀ t ∈ ts, t.1 ≠ rows ∧ t.2.1 ≠ cols)
    (hiob : ∀ k, k < 64 → ∃ v, iob (b + k) = some v) (hfuel : 16 ≤ fuel) (hfuel' : ts.length ≤ fuel) :
    ∃ A' m', jsonRead scan fuel iob b ab (matText rows cols 0 (tripsText fmt ts) rest) =
      .ok (.mat A' m', rest) ∧ A'.rows = rows ∧ A'.cols = cols ∧ A'.WF ∧
      Holds m' A' (ts.foldl (fun g t => fun i j => if t.1 = (i : Int) ∧ t.2.1 = (j : Int) then t.2.2 else g i j)
        (fun _ _ => 0)) := by
  have h1 : rows ≤ rows * cols := Nat.le_mul_of_pos_right _ hc
  have h2 : cols ≤ rows * cols := Nat.le_mul_of_pos_left _ hr
  exact jsonRead_coord hiob hfuel hfuel' hr hc ⟨by omega, by omega⟩ ⟨by omega, by omega⟩ ⟨by omega, by omega⟩ hts
    (fun t ht => ⟨(hint t ht).1, (hint t ht).2, hnum t ht⟩) hin

-- [[0,1,5],[7,0,3],[1,-1,4],[1,0,6]] in a 2 × 2 matrix
example := C36_coord_partial (α := Int) (fmt := fmt1) (scan := scan1) (rows := 2) (cols := 2)
  (ts := [(0, 1, 5), (7, 0, 3), (1, -1, 4), (1, 0, 6)]) (iob := tot (fun _ => 0)) (b := 0) (ab := 100)
  (fuel := 16) (rest := []) (by decide) (by decide) (by decide) (by decide) (by decide)
  (fun t ht => ⟨intText_num _, (intText_length (v := _) ⟨by omega, by omega⟩).trans (by decide), by
    revert t; decide +kernel⟩)
  (by decide) (fun k _ => ⟨_, rfl⟩) (by decide) (by decide)

/-- C36, partial, any input: reading coordinates ends, and with storage for one more row and column than
declared it only writes the cells (i,j) with `i ≤ rows`, `j ≤ cols`.  Missing: the code needs `<`
there.  Numbers of more than nine digits are excluded (`atoi` of a value outside `int` is undefined). -/
theorem C36_bounds_partial {α : Type} {scan : List Int → α} {A : View} {m : Mem α} {iob : Mem Int}
    {b n cnt fuel : Nat} {inp : List Int} (hn : 1 ≤ n) (hiob : ∀ k, k < n → ∃ v, iob (b + k) = some v)
    (hnum : ∀ d, d <:+: inp → (∀ c ∈ d, isDigit c = true) → d.length ≤ 9) (hfuel : inp.length < fuel)
    (hA : ∀ i j, i ≤ A.rows → j ≤ A.cols → (m (A.at' i j)).isSome) :
    ∃ o m' s, readCoordData scan b n A fuel cnt m ⟨iob, inp⟩ = .ok (o, m', s) ∧
      ∀ p, (∀ i j, i ≤ A.rows → j ≤ A.cols → p ≠ A.at' i j) → m' p = m p := by
  obtain ⟨⟨o, m', s⟩, e, h⟩ := readCoordData_safe (scan := scan) (A := A) (b := b) hn fuel (cnt := cnt) (m := m)
    (s := ⟨iob, inp⟩) hiob hnum hfuel (by rintro p ⟨i, j, hi, hj, rfl⟩; exact hA i j hi hj)
  refine ⟨o, m', s, e, fun p hp => h p ?_⟩
  rintro ⟨i, j, hi, hj, rfl⟩
  exact hp i j hi hj rfl

-- the garbage `[1,2,x}` on a 2 × 2 matrix
example := C36_bounds_partial (α := Int) (scan := scan1) (A := ⟨0, 3, 2, 2⟩) (m := tot (fun _ => 0))
  (iob := tot (fun _ => 0)) (b := 0) (n := 64) (cnt := 0) (fuel := 10) (inp := [91, 49, 44, 50, 44, 120, 125])
  (by decide) (fun k _ => ⟨_, rfl⟩) (fun d hd _ => hd.length_le.trans (by decide)) (by decide)
  (fun _ _ _ _ => rfl)

/-- The cells of the matrix read from a document with the triplets `ts`, or `none`. -/
def coordCells (rows cols : Int) (ts : List (Int × Int × Int)) (k : Nat) : Res (Option (List (Option Int))) :=
  match jsonRead (α := Int) scan1 16 (fun p => if p < 64 then some 0 else none) 0 0
      (matText rows cols 0 (tripsText fmt1 ts) []) with
  | .ok (.mat _ m, _) => .ok (some ((List.range k).map m))
  | .ok _ => .ok none
  | .ub => .ub
  | .diverge => .diverge

/-- C36 is false: in a 2 × 2 matrix the triplet `[2,0,5]`, outside the matrix, is not discarded but
overwrites element (0,1). -/
theorem C36_row_false : coordCells 2 2 [(0, 0, 1), (2, 0, 5)] 4 =
    .ok (some [some 1, some 0, some 5, some 0]) := by decide +kernel

/-- C36 is false: in a 2 × 2 matrix the triplet `[0,2,5]` is written behind the elements
(undefined behaviour). -/
theorem C36_col_false : coordCells 2 2 [(0, 2, 5)] 4 = .ub := by decide +kernel

end Armas.Props
