import Verif.Kernel
import Mathlib.Data.Nat.Sqrt

/-!
# Model of the run-time configuration and of the cache buffer

`src/base/env.c` (environment variables `ARMAS_CONFIG` and `ARMAS_CACHE`) and `src/base/cache.c`
(aligned buffer, two and three way split).

Simplifications: the C library functions `atoi` and `strtoul` are parameters (`Libc`); theorems hold
for whatever they return.  `double` arithmetic in the splits is replaced by exact arithmetic, i.e.
`(size_t)sqrt(b*S/(1+a))` with `a = mb/nb`, `b = kb/nb` is the integer square root of
`kb*S/(mb+nb)`.  Sizes are natural numbers; the products `val *= 1024` wrap at 2^64.
-/

namespace Armas

/-! ## Environment -/

/-- What the C library returns for a token: `atoi`, and `strtoul` with the first character behind the
number (`none` at the end of the token). -/
structure Libc where
  atoi : List Char → Int
  strtoul : List Char → Nat × Option Char

/-- `struct armas_env` (`src/include/armas.h:206-216`). -/
structure EnvConf where
  mb : Int
  nb : Int
  kb : Int
  lb : Int
  blas1min : Int
  blas2min : Int
  cmem : Nat
  l1mem : Nat
  fixed : Bool
deriving DecidableEq

/-- Initial values (`src/base/env.c:27-37`). -/
def EnvConf.default : EnvConf := ⟨64, 64, 160, 64, 1024, 256, 262144, 32768, false⟩

/-- One token of `ARMAS_CONFIG` (`src/base/env.c:78-108`). -/
def confTok (lc : Libc) (n : Nat) (tok : List Char) (e : EnvConf) : EnvConf :=
  let val := lc.atoi tok
  match n with
  | 0 => if val > 0 then { e with mb := val } else e
  | 1 => if val > 0 then { e with nb := val } else e
  | 2 => if val > 0 then { e with kb := val } else e
  | 3 => if val > 0 then { e with lb := val } else e
  | 4 => if val > 0 then { e with blas1min := val } else e
  | 5 => if val > 0 then { e with blas2min := val } else e
  | _ => { e with fixed := match tok with
      | [] => false
      | ch :: _ => ch.toLower == 'y' }

/-- A token of `ARMAS_CACHE` as a number of bytes (`src/base/env.c:115-129`). -/
def cacheVal (lc : Libc) (tok : List Char) : Nat :=
  (match (lc.strtoul tok).2 with
    | some ch => if ch.toUpper = 'K' then (lc.strtoul tok).1 * 1024
      else if ch.toUpper = 'M' then (lc.strtoul tok).1 * (1024 * 1024) else (lc.strtoul tok).1
    | none => (lc.strtoul tok).1) % 2 ^ 64

/-- One token of `ARMAS_CACHE` (`src/base/env.c:114-139`); `CMEM_MIN` 4096, `L1MEM_MIN` 1024. -/
def cacheTok (lc : Libc) (n : Nat) (tok : List Char) (e : EnvConf) : EnvConf :=
  let val := cacheVal lc tok
  match n with
  | 0 => if val > 0 then { e with cmem := if val < 4096 then 4096 else val } else e
  | 1 => if val > 0 then { e with l1mem := if val < 1024 then 1024 else val } else e
  | _ => e

/-- The two `strsep` loops (`src/base/env.c:78,114`): tokens between commas, numbered from 0. -/
def eachTok (f : Nat → List Char → EnvConf → EnvConf) : Nat → List (List Char) → EnvConf → EnvConf
  | _, [], e => e
  | n, t :: ts, e => eachTok f (n + 1) ts (f n t e)

/-- `armas_read_environment` (`src/base/env.c:67-143`) at its first call; `none` is an unset
variable. -/
def readEnvironment (lc : Libc) (config cache : Option (List Char)) : EnvConf :=
  let e := match config with
    | none => EnvConf.default
    | some s => eachTok (confTok lc) 0 (s.splitOn ',') EnvConf.default
  match cache with
  | none => e
  | some s => eachTok (cacheTok lc) 0 (s.splitOn ',') e

/-! ## Cache buffer -/

/-- `armas_cbuf_t`: start address and length of the aligned area in bytes
(`src/include/armas.h`, `src/base/cache.c:76-90`). -/
structure CBuf where
  data : Nat
  len : Nat
  cmem : Nat
  l1mem : Nat

/-- `alloc_size` (`src/base/cache.c:44-51`), `CACHELINE` 64, `CLSHIFT` 5. -/
def allocSize (requested : Nat) : Nat := (requested + 64 - 1) / 32 * 32 + 64 - 1

/-- Bytes skipped by `cache_aligned` (`src/base/cache.c:53-61`). -/
def alignSkip (addr : Nat) : Nat := 64 - addr % 64

/-- `armas_cbuf_make` (`src/base/cache.c:120-128`); `len - na` must not be negative, which is a
precondition of the theorems. -/
def cbufMake (buf cmem l1mem : Nat) : CBuf :=
  ⟨buf + alignSkip buf, cmem - alignSkip buf, cmem, l1mem⟩

/-- `armas_cbuf_init` (`src/base/cache.c:76-90`) when `calloc` returned `addr`. -/
def cbufInit (addr cmem l1mem : Nat) : CBuf :=
  let asize := if allocSize cmem < 1024 then 1024 else allocSize cmem
  ⟨addr + alignSkip addr, asize - alignSkip addr, cmem, l1mem⟩

/-- `x & ~0x3`. -/
def mask4 (x : Nat) : Nat := x / 4 * 4

/-- `armas_cbuf_split2` (`src/base/cache.c:193-226`), returns `(mn, nn, kn)`. -/
def split2 (cb : CBuf) (mb nb kb p : Nat) : Nat × Nat × Nat :=
  let S := cb.len / p
  if cb.len ≤ 1024 then
    let n := if p < 8 then 8 else 4
    (n, n, n)
  else
    let kn := Nat.sqrt (kb * S / (mb + nb))
    let clp := 64 / p
    let kn := if kn > clp then kn - kn % clp else kn
    let nn := kn * nb / kb
    let mn := nn * mb / nb
    (mask4 mn, mask4 nn, kn)

/-- The row block of `armas_cache_setup2` and `armas_cache_setup3` (`src/base/cache.c:278-288`,
`:398-408`); an integer division by zero is undefined. -/
def setupRb (l1mem KB MB p : Nat) : Res Nat :=
  if l1mem > 0 then
    if KB * p = 0 then .ub
    else
      let rb := mask4 (l1mem / (KB * p))
      let rb := if rb = 0 then 4 else rb
      .ok (if rb > MB then MB else rb)
  else .ok MB

/-- `armas_cache_setup2` (`src/base/cache.c:265-295`).  Buffer addresses are given in elements: the
area is aligned to 64 bytes and the element size `p` divides 64. -/
def setup2 (cb : CBuf) (mb nb kb p : Nat) : Res Cache := do
  let (MB, NB, KB) := split2 cb mb nb kb p
  let rb ← setupRb cb.l1mem KB MB p
  pure { Acpy := cb.data / p, Bcpy := cb.data / p + MB * KB,
         step := if KB < 64 / p then 64 / p else KB, KB := KB, NB := NB, MB := MB, rb := rb }

/-- `armas_cbuf_split3` (`src/base/cache.c:310-349`), returns `(mn, nn, kn)`. -/
def split3 (cb : CBuf) (mb nb kb p : Nat) : Nat × Nat × Nat :=
  let S := cb.len / p
  if cb.len ≤ 1024 then
    let n := if p < 8 then 8 else 4
    (n, n, n)
  else
    let kb := if kb < mb then mb else kb
    let kn := Nat.sqrt (kb * S / (2 * nb + mb))
    let clp := 64 / p
    let kn := if kn > clp then kn - kn % clp else kn
    let nn := kn * nb / kb
    let mn := nn * mb / nb
    (mask4 mn, mask4 nn, kn)

/-- The third buffer of `armas_cache_setup3`. -/
structure Cache3 where
  c : Cache
  dC : Nat

/-- `armas_cache_setup3` (`src/base/cache.c:386-420`). -/
def setup3 (cb : CBuf) (mb nb kb p : Nat) : Res Cache3 := do
  let (MB, NB, KB) := split3 cb mb nb kb p
  let rb ← setupRb cb.l1mem KB MB p
  pure ⟨{ Acpy := cb.data / p, Bcpy := cb.data / p + MB * KB,
          step := if KB < 64 / p then 64 / p else KB, KB := KB, NB := NB, MB := MB, rb := rb },
        cb.data / p + (MB + NB) * KB⟩

/-- `armas_cache_fixed3` (`src/base/cache.c:355-384`); `none` when the memory is too small. -/
def fixed3 (cb : CBuf) (mb nb kb p : Nat) : Option Cache3 :=
  let bytes := (if kb > 64 / p then kb else 64 / p) * (mb + 2 * nb) * p
  if bytes > cb.cmem then none
  else
    let kb := if kb > 64 / p then kb - kb % (64 / p) else kb
    let kb := if kb < 4 then 4 else kb
    let mb := mask4 mb
    let nb := mask4 nb
    let rb := mb / 4
    let rb := if rb < 4 then 4 else rb
    let step := if kb > 64 / p then kb else 64 / p
    some ⟨{ Acpy := cb.data / p, Bcpy := cb.data / p + mb * step, step := step, KB := kb, NB := nb,
            MB := mb, rb := rb }, cb.data / p + (mb + nb) * step⟩

/-- `armas_mult` with the thread's own cache buffer (`src/blas/gemm.c:110-121`,
`src/base/cache.c:444-462,485-509`): `buf` is the address behind the `armas_cbuf_t` header. -/
def multEnv {α : Type} [Mul α] [Add α] [Zero α] [One α] [DecidableEq α] (ab : α → α) (e : EnvConf)
    (buf p : Nat) (m : Mem α) (beta : α) (C : View) (alpha : α) (A B : View) (fl : Flags) :
    Res (Int × Mem α) :=
  if A.size = 0 ∨ B.size = 0 ∨ C.size = 0 then .ok (0, m)
  else if ¬ multSizes C A B fl then .ok (-ESIZE, m)
  else do
    let c ← setup2 (cbufMake buf e.cmem e.l1mem) e.mb.toNat e.nb.toNat e.kb.toNat p
    mult ab m beta C alpha A B fl (some c)

end Armas
