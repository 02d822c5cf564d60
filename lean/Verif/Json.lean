import Verif.Mem

/-!
# JSON tokens and matrices (src/io)

Characters are `Int`s: what `armas_ios_getchar` returns (`src/include/armas.h:328-333`), negative
meaning end of input.

Simplifications:
* an input stream is the list of the values its future `armas_ios_getchar` calls return; at the end
  of the list every call returns a negative value.  This covers a `FILE` (values 0..255,
  `src/io/ios.c:10-15`) and a memory stream (values of a signed `char`, `src/io/ios.c:44-51`).
  `armas_ios_ungetchar` of the character just read puts it back in front of the list
  (`src/io/ios.c:17-22`, `53-59`).
* an output stream is the list of characters put; writing never fails.
* character classes are those of the C locale.
-/

namespace Armas

/-- Tokens (`src/include/armas.h:173-183`): a single character or one of the `ARMAS_JSON_*` codes.
`ARMAS_JSON_INT` is never returned by the reader and is left out. -/
inductive JTok where
  | ch (c : Int)
  | string | number | tru | fls | null | einval | e2big | eof
deriving DecidableEq, Repr

/-- States of the tokenizer (`src/io/json_reader.c:65-89`).  The states with the last letter of a
literal (`TRUE3`, `FALSE4`, `NULL3`) are never entered by the code. -/
inductive JSt where
  | value | string | number | exp | exp1 | escape | hex1 | hex2 | hex3 | hex4
  | true0 | true1 | true2 | false0 | false1 | false2 | false3 | null0 | null1 | null2
deriving DecidableEq, Repr

/-- `isdigit` (C locale), as used in `src/io/json_reader.c:218,236,261,361`. -/
def isDigit (c : Int) : Bool := decide (48 ≤ c ∧ c ≤ 57)

/-- `isxdigit` (C locale), as used in `src/io/json_reader.c:163-184`. -/
def isXDigit (c : Int) : Bool :=
  decide ((48 ≤ c ∧ c ≤ 57) ∨ (65 ≤ c ∧ c ≤ 70) ∨ (97 ≤ c ∧ c ≤ 102))

/-- `iscntrl` (C locale), as used in `src/io/json_reader.c:358` and `src/io/json_writer.c:72`. -/
def isCntrl (c : Int) : Bool := decide ((0 ≤ c ∧ c ≤ 31) ∨ c = 127)

/-- Conversion of an `int` 0..255 to (signed) `char` when a character is stored
(`*bp++ = c`, `src/io/json_reader.c:129`). -/
def toChar (c : Int) : Int := if 128 ≤ c then c - 256 else c

/-- Value of a string of digits. -/
def digitsVal (l : List Int) : Int := l.foldl (fun v c => 10 * v + (c - 48)) 0

/-- Value that `atoi` computes: white space, sign, digits up to the first other character. -/
def atoiVal (l : List Int) : Int :=
  match l.dropWhile (fun c => decide (c = 32 ∨ (9 ≤ c ∧ c ≤ 13))) with
  | [] => 0
  | c :: r =>
    if c = 45 then - digitsVal (r.takeWhile isDigit)
    else if c = 43 then digitsVal (r.takeWhile isDigit)
    else digitsVal ((c :: r).takeWhile isDigit)

/-- `atoi` (`src/io/json_base.c:122,127,314,329`, `src/io/json_reader.c:188`); a value outside `int`
is undefined behaviour. -/
def atoi (l : List Int) : Res Int :=
  if -2147483648 ≤ atoiVal l ∧ atoiVal l ≤ 2147483647 then .ok (atoiVal l) else .ub

/-- Local variables of `armas_json_read_token` (`src/io/json_reader.c:97-102`): state, `is_frac`,
the hexadecimal digits collected in `lit`, `bp - buf`, and the memory with the buffer. -/
structure TokS where
  st : JSt
  frac : Bool
  lit : List Int
  k : Nat
  mem : Mem Int

/-- Outcome of one pass of the tokenizer loop: return a token (having put the last character back
or not), or go on. -/
inductive TokOut where
  | done (t : JTok) (unget : Bool) (m : Mem Int)
  | go (s : TokS)

/-- `*bp++ = c; state = st'` (`src/io/json_reader.c:129`). -/
def tokPut (b : Nat) (s : TokS) (c : Int) (st' : JSt) : Res TokOut := do
  let m ← wr s.mem (b + s.k) (toChar c)
  .ok (.go { s with st := st', k := s.k + 1, mem := m })

/-- `*bp = '\0'; return t` (`src/io/json_reader.c:111-113,122-123,202-205,257-259`). -/
def tokEnd (b : Nat) (s : TokS) (t : JTok) (unget : Bool) : Res TokOut := do
  let m ← wr s.mem (b + s.k) 0
  .ok (.done t unget m)

/-- Return a token without touching the buffer. -/
def tokRet (s : TokS) (t : JTok) : Res TokOut := .ok (.done t false s.mem)

/-- Change state only. -/
def tokGo (s : TokS) (st' : JSt) : Res TokOut := .ok (.go { s with st := st' })

/-- Characters that end a number (`src/io/json_reader.c:195-201`, `250-256`). -/
def endsNum (c : Int) : Bool :=
  decide (c = 44 ∨ c = 93 ∨ c = 125 ∨ c = 32 ∨ c = 10 ∨ c = 13 ∨ c = 9)

/-- One step of a literal: the expected letter or an error (`src/io/json_reader.c:271-319`). -/
def tokLit (s : TokS) (c want : Int) (st' : JSt) : Res TokOut :=
  if c ≠ want then tokRet s .einval else tokGo s st'

/-- Last letter of a literal (`src/io/json_reader.c:281-284`). -/
def tokLitEnd (s : TokS) (c want : Int) (t : JTok) : Res TokOut :=
  if c ≠ want then tokRet s .einval else tokRet s t

/-- The switch of `armas_json_read_token` on a character `c ≥ 0` (`src/io/json_reader.c:119-368`). -/
def tokStep (b : Nat) (s : TokS) (c : Int) : Res TokOut :=
  match s.st with
  | .string =>
    if c = 34 then tokEnd b s .string false
    else if c = 92 then tokGo s .escape
    else tokPut b s c .string
  | .escape =>
    if c = 34 ∨ c = 92 ∨ c = 47 then tokPut b s c .string
    else if c = 98 then tokPut b s 8 .string
    else if c = 110 then tokPut b s 10 .string
    else if c = 114 then tokPut b s 13 .string
    else if c = 116 then tokPut b s 9 .string
    else if c = 117 then tokGo s .hex1
    else tokRet s .einval
  | .hex1 =>
    if isXDigit c then .ok (.go { s with st := .hex2, lit := [c] }) else tokRet s .einval
  | .hex2 =>
    if isXDigit c then .ok (.go { s with st := .hex3, lit := s.lit ++ [c] }) else tokRet s .einval
  | .hex3 =>
    if isXDigit c then .ok (.go { s with st := .hex4, lit := s.lit ++ [c] }) else tokRet s .einval
  | .hex4 =>
    if isXDigit c then do
      let v ← atoi (s.lit ++ [c])
      tokPut b s (v % 256) .string
    else tokRet s .einval
  | .number =>
    if endsNum c then tokEnd b s .number true
    else if c = 101 ∨ c = 69 then tokPut b s c .exp
    else if c = 46 then
      if s.frac then tokRet s .einval else tokPut b { s with frac := true } c .number
    else if isDigit c then tokPut b s c .number
    else tokRet s .einval
  | .exp =>
    if c = 45 ∨ c = 43 then tokPut b s c .exp
    else if isDigit c then tokPut b s c .exp1
    else tokRet s .einval
  | .exp1 =>
    if endsNum c then tokEnd b s .number true
    else if isDigit c then tokPut b s c .exp1
    else tokRet s .einval
  | .true0 => tokLit s c 114 .true1
  | .true1 => tokLit s c 117 .true2
  | .true2 => tokLitEnd s c 101 .tru
  | .false0 => tokLit s c 97 .false1
  | .false1 => tokLit s c 108 .false2
  | .false2 => tokLit s c 115 .false3
  | .false3 => tokLitEnd s c 101 .fls
  | .null0 => tokLit s c 117 .null1
  | .null1 => tokLit s c 108 .null2
  | .null2 => tokLitEnd s c 108 .null
  | .value =>
    if c = 123 ∨ c = 125 ∨ c = 91 ∨ c = 93 ∨ c = 58 ∨ c = 44 then tokRet s (.ch c)
    else if c = 34 then tokGo s .string
    else if c = 32 ∨ c = 10 ∨ c = 9 ∨ c = 13 then tokGo s .value
    else if c = 116 then tokGo s .true0
    else if c = 102 then tokGo s .false0
    else if c = 110 then tokGo s .null0
    else if c = 0 then tokRet s .eof
    else if isCntrl c then tokRet s .einval
    else if isDigit c ∨ c = 45 then tokPut b s c .number
    else tokGo s .value

/-- End of input inside the tokenizer (`src/io/json_reader.c:106-117`). -/
def tokEof (b : Nat) (s : TokS) : Res (JTok × Mem Int) :=
  if s.st = .number ∨ s.st = .exp1 then do
    let m ← wr s.mem (b + s.k) 0
    .ok (.number, m)
  else .ok (.eof, s.mem)

/-- The loop of `armas_json_read_token` (`src/io/json_reader.c:103-376`) with the test
`(size_t)(bp - buf) >= len-1` at its end; for `len = 0` the right side is the largest `size_t` and
the test never succeeds.  Returns the token, the rest of the input and the memory. -/
def tokLoop (b len : Nat) : TokS → List Int → Res (JTok × List Int × Mem Int)
  | s, [] => do
    let (t, m) ← tokEof b s
    .ok (t, [], m)
  | s, c :: r =>
    if c < 0 then do
      let (t, m) ← tokEof b s
      .ok (t, r, m)
    else do
      match ← tokStep b s c with
      | .done t true m => .ok (t, c :: r, m)
      | .done t false m => .ok (t, r, m)
      | .go s' =>
        if 0 < len ∧ len - 1 ≤ s'.k then .ok (.e2big, r, s'.mem)
        else tokLoop b len s' r

/-- `armas_json_read_token(buf, len, reader)` (`src/io/json_reader.c:95-376`): the buffer starts at
cell `b` of `m`. -/
def readToken (m : Mem Int) (b len : Nat) (inp : List Int) : Res (JTok × List Int × Mem Int) :=
  tokLoop b len ⟨.value, false, [], 0, m⟩ inp

/-! ## Writer -/

/-- One character of a string in `armas_json_write_token` (`src/io/json_writer.c:41-75`).  Characters
`char` < 0 reach `iscntrl` with an argument outside its domain (undefined behaviour). -/
def writeChar (c : Int) : Res (List Int) :=
  if c = 9 then .ok [92, 116]
  else if c = 13 then .ok [92, 114]
  else if c = 10 then .ok [92, 110]
  else if c = 8 then .ok [92, 98]
  else if c = 92 then .ok [92, 92]
  else if c = 47 then .ok [92, 47]
  else if c = 34 then .ok [92, 34]
  else if c < 0 then .ub
  else if isCntrl c then .ok []
  else .ok [c]

/-- The loop over the characters of a string (`src/io/json_writer.c:40-75`); the string is given as
the list of its characters before the NUL and `len` bounds the number of characters written. -/
def writeChars : List Int → Nat → Res (List Int)
  | [], _ => .ok []
  | _ :: _, 0 => .ok []
  | c :: r, len + 1 => do
    let o ← writeChar c
    let o' ← writeChars r len
    .ok (o ++ o')

/-- `armas_json_write_token(ARMAS_JSON_STRING, s, len, …)` (`src/io/json_writer.c:37-77`). -/
def writeString (s : List Int) (len : Nat) : Res (List Int) := do
  let o ← writeChars s len
  .ok ([34] ++ o ++ [34])

/-- Decimal digits of a natural number (`"%d"` of a non-negative number). -/
def natText (n : Nat) : List Int :=
  if n < 10 then [48 + (n : Int)] else natText (n / 10) ++ [48 + ((n % 10 : Nat) : Int)]
decreasing_by omega

/-- `armas_json_write_token(ARMAS_JSON_INT, …)`: `snprintf("%d")` (`src/io/json_writer.c:78-86`). -/
def intText (n : Int) : List Int := if n < 0 then 45 :: natText n.natAbs else natText n.natAbs

/-- `armas_json_write_token(ARMAS_JSON_NUMBER, …)` (`src/io/json_writer.c:87-106`): nothing is written
for a value that is not finite.  `fmt` is the text `snprintf("%.14g")` produces. -/
def writeNum {α : Type} (fin : α → Bool) (fmt : α → List Int) (v : α) : List Int :=
  if fin v then fmt v else []

/-- The characters of `"rows"`. -/
def kRows : List Int := [114, 111, 119, 115]
/-- The characters of `"cols"`. -/
def kCols : List Int := [99, 111, 108, 115]
/-- The characters of `"data"`. -/
def kData : List Int := [100, 97, 116, 97]
/-- The characters of `"nnz"`. -/
def kNnz : List Int := [110, 110, 122]
/-- The characters of `"flags"`. -/
def kFlags : List Int := [102, 108, 97, 103, 115]

/-- A header member: `"key":value,` (`src/io/json_base.c:58-73`). -/
def writeMember (key : List Int) (v : Int) : Res (List Int) := do
  let k ← writeString key key.length
  .ok (k ++ [58] ++ intText v ++ [44])

/-- The element loops of `armas_json_write` (`src/io/json_base.c:80-89`). -/
def writeElems {α : Type} (fin : α → Bool) (fmt : α → List Int) (m : Mem α) (A : View) :
    Res (List Int) := do
  let (_, s) ← forUp 0 A.cols 1 (fun j s => do
    let (_, s) ← forUp 0 A.rows 1 (fun i (s : Nat × List Int) => do
      let o := if 0 < s.1 then s.2 ++ [44] else s.2
      let v ← rd m (A.at' i j)
      .ok (s.1 + 1, o ++ writeNum fin fmt v)) s
    .ok s) ((0, []) : Nat × List Int)
  .ok s.2

/-- `armas_json_write(ios, A, flags)` (`src/io/json_base.c:44-95`) for a non-null `A`. -/
def jsonWrite {α : Type} (fin : α → Bool) (fmt : α → List Int) (m : Mem α) (A : View) (flags : Int) :
    Res (List Int) := do
  let r ← writeMember kRows A.rows
  let c ← writeMember kCols A.cols
  let f ← if flags ≠ 0 then writeMember kFlags flags else .ok []
  let d ← writeString kData 4
  let e ← writeElems fin fmt m A
  .ok ([123] ++ r ++ c ++ f ++ d ++ [58, 91] ++ e ++ [93, 125])

/-! ## Reader -/

/-- The characters of the C string at cell `b`; reading past `n` cells is undefined behaviour. -/
def cstr (m : Mem Int) (b : Nat) : Nat → Res (List Int)
  | 0 => .ub
  | n + 1 => do
    let c ← rd m b
    if c = 0 then .ok []
    else do
      let r ← cstr m (b + 1) n
      .ok (c :: r)

/-- State of the readers: buffer `iob`, remaining input. -/
structure RdS where
  iob : Mem Int
  inp : List Int

/-- Read the next token into `iob` (at cell `b`, `n` bytes). -/
def nextTok (b n : Nat) (s : RdS) : Res (JTok × RdS) := do
  let (t, r, m) ← readToken s.iob b n s.inp
  .ok (t, ⟨m, r⟩)

/-- Read a token and compare it: `if ((tok = armas_json_read_token(…)) != t) return -1`
(`src/io/json_base.c:118`). -/
def expect (b n : Nat) (t : JTok) (s : RdS) : Res (Option RdS) := do
  let (t', s') ← nextTok b n s
  if t' = t then .ok (some s') else .ok none

/-- `armas_json_read_coord` (`src/io/json_base.c:114-138`); `scan` is `strtod` followed by the
conversion to `DTYPE`. -/
def readCoord {α : Type} (scan : List Int → α) (b n : Nat) (s : RdS) :
    Res (Option (Int × Int × α × RdS)) := do
  match ← expect b n (.ch 91) s with
  | none => .ok none
  | some s =>
  match ← expect b n .number s with
  | none => .ok none
  | some s =>
  let row ← cstr s.iob b n >>= atoi
  match ← expect b n (.ch 44) s with
  | none => .ok none
  | some s =>
  match ← expect b n .number s with
  | none => .ok none
  | some s =>
  let col ← cstr s.iob b n >>= atoi
  match ← expect b n (.ch 44) s with
  | none => .ok none
  | some s =>
  match ← expect b n .number s with
  | none => .ok none
  | some s =>
  let txt ← cstr s.iob b n
  match ← expect b n (.ch 93) s with
  | none => .ok none
  | some s => .ok (some (row, col, scan txt, s))

/-- The bounds test and `armas_set_unsafe` of `armas_json_read_coorddata`
(`src/io/json_base.c:150-151`, `src/include/matrix.h:470-474`): both comparisons are `<=`. -/
def coordSet {α : Type} (m : Mem α) (A : View) (row col : Int) (v : α) : Res (Mem α) :=
  if 0 ≤ row ∧ row ≤ A.rows ∧ 0 ≤ col ∧ col ≤ A.cols then wr m (A.at' row.toNat col.toNat) v
  else .ok m

/-- `armas_json_read_coorddata` (`src/io/json_base.c:140-165`).  `some` = number of triplets. -/
def readCoordData {α : Type} (scan : List Int → α) (b n : Nat) (A : View) :
    Nat → Nat → Mem α → RdS → Res (Option Nat × Mem α × RdS)
  | 0, _, _, _ => .diverge
  | fuel + 1, cnt, m, s => do
    match ← readCoord scan b n s with
    | none => .ok (none, m, s)
    | some (row, col, v, s) =>
      let m ← coordSet m A row col v
      let (t, s) ← nextTok b n s
      if t = .ch 93 then .ok (some (cnt + 1), m, ⟨s.iob, 93 :: s.inp⟩)
      else if t = .ch 44 then readCoordData scan b n A fuel (cnt + 1) m s
      else .ok (none, m, s)

/-- State of `armas_json_read_data`: counter, matrix memory, reader; `stop` holds the early result. -/
structure DatS (α : Type) where
  n : Nat
  mem : Mem α
  rd : RdS
  stop : Option (Option Nat)

/-- The separator in front of an element but the first (`src/io/json_base.c:174-183`). -/
def readSep {α : Type} (b n : Nat) (s : DatS α) : Res (DatS α) :=
  if 0 < s.n then do
    let (t, r) ← nextTok b n s.rd
    if t ≠ .ch 44 then
      if t = .ch 93 then .ok { s with rd := ⟨r.iob, 93 :: r.inp⟩, stop := some (some s.n) }
      else .ok { s with rd := r, stop := some none }
    else .ok { s with rd := r }
  else .ok s

/-- The value of an element, or the change to coordinate format (`src/io/json_base.c:184-202`). -/
def readElem {α : Type} (scan : List Int → α) (fuel b n : Nat) (A : View) (i j : Nat) (s : DatS α) :
    Res (DatS α) := do
  let (t, r) ← nextTok b n s.rd
  if t ≠ .number then
    if s.n = 0 ∧ t = .ch 91 then do
      let (o, m, r) ← readCoordData scan b n A fuel 0 s.mem ⟨r.iob, 91 :: r.inp⟩
      .ok { s with mem := m, rd := r, stop := some o }
    else .ok { s with rd := r, stop := some none }
  else do
    let txt ← cstr r.iob b n
    let m ← wr s.mem (A.at' i j) (scan txt)
    .ok { s with n := s.n + 1, mem := m, rd := r }

/-- `armas_json_read_data` (`src/io/json_base.c:167-206`).  After a `return` in the loops (`stop`)
the remaining passes do nothing. -/
def readData {α : Type} (scan : List Int → α) (fuel b n : Nat) (A : View) (m : Mem α) (s : RdS) :
    Res (Option Nat × Mem α × RdS) := do
  let (_, d) ← forUp 0 A.cols 1 (fun j d => do
    let (_, d) ← forUp 0 A.rows 1 (fun i (d : DatS α) => do
      if d.stop.isSome then .ok d
      else do
        let d ← readSep b n d
        if d.stop.isSome then .ok d
        else readElem scan fuel b n A i j d) d
    .ok d) (⟨0, m, s, none⟩ : DatS α)
  match d.stop with
  | some o => .ok (o, d.mem, d.rd)
  | none => .ok (some d.n, d.mem, d.rd)

/-- States of the header loop of `armas_json_read` (`src/io/json_base.c:97-112`). -/
inductive MSt where
  | key | sep | rowSep | colSep | nnzSep | flgSep | dtaSep | rowVal | colVal | nnzVal | flgVal | dtaVal
deriving DecidableEq, Repr

/-- Local variables of the header loop (`src/io/json_base.c:231-241`). -/
structure Hdr where
  st : MSt
  rows : Int
  cols : Int
  nnz : Int
  flags : Int
  hasRows : Bool
  hasCols : Bool
  hasNnz : Bool
  hasFlags : Bool

/-- Outcome of one pass of the header loop: return an error code, return the null matrix, go on. -/
inductive HOut where
  | err (code : Int)
  | null
  | go (h : Hdr)

/-- The key of a member (`src/io/json_base.c:261-300`): `strncmp` with the length of the literal
accepts every key that starts with it. -/
def hdrKey (key : List Int) (h : Hdr) : HOut :=
  if kRows.isPrefixOf key then
    if h.hasRows then .err (-4) else .go { h with st := .rowSep }
  else if kCols.isPrefixOf key then
    if h.hasCols then .err (-4) else .go { h with st := .colSep }
  else if kData.isPrefixOf key then .go { h with st := .dtaSep }
  else if kNnz.isPrefixOf key then
    if h.hasNnz then .err (-4) else .go { h with st := .nnzSep }
  else if kFlags.isPrefixOf key then
    if h.hasFlags then .err (-4) else .go { h with st := .flgSep }
  else .err (-2)

/-- A token that must be `t` to reach state `st'`. -/
def hdrSep (tok t : JTok) (h : Hdr) (st' : MSt) : Res HOut :=
  .ok (if tok ≠ t then .err (-1) else .go { h with st := st' })

/-- A member value: `if (tok != ARMAS_JSON_NUMBER) return -1; v = atoi(iob)`
(`src/io/json_base.c:311-317`). -/
def hdrVal (tok : JTok) (b : Nat) (iob : Mem Int) (k : Int → Hdr) : Res HOut :=
  if tok ≠ .number then .ok (.err (-1))
  else do
    let v ← cstr iob b 64 >>= atoi
    .ok (.go (k v))

/-- The switch of the header loop (`src/io/json_base.c:259-366`) on a token. -/
def hdrStep (b : Nat) (first : Bool) (tok : JTok) (iob : Mem Int) (h : Hdr) : Res HOut :=
  match h.st with
  | .key =>
    if tok ≠ .string then
      .ok (if first = true ∧ tok = .ch 125 then .null else .err (-1))
    else do
      let key ← cstr iob b 64
      .ok (hdrKey key h)
  | .sep => hdrSep tok (.ch 44) h .key
  | .rowSep => hdrSep tok (.ch 58) h .rowVal
  | .rowVal => hdrVal tok b iob (fun v => { h with rows := v, hasRows := true, st := .sep })
  | .colSep => hdrSep tok (.ch 58) h .colVal
  | .colVal => hdrVal tok b iob (fun v => { h with cols := v, hasCols := true, st := .sep })
  | .nnzSep => hdrSep tok (.ch 58) h .nnzVal
  | .nnzVal => hdrVal tok b iob (fun v => { h with nnz := v, hasNnz := true, st := .sep })
  | .flgSep => hdrSep tok (.ch 58) h .flgVal
  | .flgVal => hdrVal tok b iob (fun v => { h with flags := v, hasFlags := true, st := .sep })
  | .dtaSep => hdrSep tok (.ch 58) h .dtaVal
  | .dtaVal => .ok (.go h)

/-- The header loop `for (ntok = 0; state != MEMBER_DTA_VAL; ntok++)`
(`src/io/json_base.c:257-367`). -/
def hdrLoop (b : Nat) : Nat → Bool → Hdr → RdS → Res (HOut × RdS)
  | 0, _, _, _ => .diverge
  | fuel + 1, first, h, s =>
    if h.st = .dtaVal then .ok (.go h, s)
    else do
      let (t, s) ← nextTok b 64 s
      match ← hdrStep b first t s.iob h with
      | .go h => hdrLoop b fuel false h s
      | o => .ok (o, s)

/-- `armas_init(A, r, c)` (`src/base/matrix.c:52-80`): the view and the zeroed storage at cell `ab`.
The storage is exactly the `r*c` elements of the matrix (the few cells `calloc` gets more for
alignment are not elements); `r*c` outside `int` is undefined behaviour; `calloc` succeeds. -/
def initDense {α : Type} [Zero α] (ab : Nat) (r c : Int) : Res (View × Mem α) :=
  if r ≤ 0 ∨ c ≤ 0 then .ok (⟨ab, 0, r.toNat, c.toNat⟩, fun _ => none)
  else if r * c ≤ 2147483647 then
    .ok (⟨ab, r.toNat, r.toNat, c.toNat⟩,
      fun p => if ab ≤ p ∧ p < ab + r.toNat * c.toNat then some 0 else none)
  else .ub

/-- Result of `armas_json_read`: an error code, the null matrix, or a matrix. -/
inductive JRes (α : Type) where
  | err (code : Int)
  | null
  | mat (A : View) (m : Mem α)

/-- The part of `armas_json_read` behind the header (`src/io/json_base.c:368-409`). -/
def jsonBody {α : Type} [Zero α] (scan : List Int → α) (fuel b ab : Nat) (h : Hdr) (s : RdS) :
    Res (JRes α × List Int) := do
  if ¬ (h.hasRows ∧ h.hasCols) then .ok (.err (-5), s.inp)
  else do
  let (t, s) ← nextTok b 64 s
  if t ≠ .ch 91 then .ok (.err (-1), s.inp)
  else do
  let (A, m) ← initDense ab h.rows h.cols
  let (o, m, s) ← readData scan fuel b 64 A m s
  match o with
  | none => .ok (.err (-1), s.inp)
  | some _ => do
    let (t, s) ← nextTok b 64 s
    if t ≠ .ch 93 then .ok (.err (-1), s.inp)
    else do
      let (t, s) ← nextTok b 64 s
      .ok (if t = .ch 125 then .mat A m else .err (-1), s.inp)

/-- `armas_json_read` (`src/io/json_base.c:231-409`): `iob` is a buffer of 64 bytes at cell `b`; the
new matrix gets storage at cell `ab`. -/
def jsonRead {α : Type} [Zero α] (scan : List Int → α) (fuel : Nat) (iob : Mem Int) (b ab : Nat)
    (inp : List Int) : Res (JRes α × List Int) := do
  let (t, s) ← nextTok b 64 ⟨iob, inp⟩
  if t = .null then .ok (.null, s.inp)
  else if t ≠ .ch 123 then .ok (.err (-1), s.inp)
  else do
    match ← hdrLoop b fuel true ⟨.key, 0, 0, 0, 0, false, false, false, false⟩ s with
    | (.err e, s) => .ok (.err e, s.inp)
    | (.null, s) => .ok (.null, s.inp)
    | (.go h, s) => jsonBody scan fuel b ab h s

end Armas
