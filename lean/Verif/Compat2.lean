import Verif.Compat
import Verif.Blas2
import Verif.Kernel
import Verif.Symm
import Verif.Trxm
import Verif.Updtrm
import Verif.Syr2k

/-!
# Model of the BLAS compatibility layer, levels 2 and 3 (`src/compat/{gemv,symv,trmv,trsv,ger,syr,syr2,gemm,symm,syrk,syr2k,trmm,trsm}.c`)

Compiled under the Fortran names `dgemv_`, ... and the names `cblas_dgemm`, `cblas_dsymm`, `cblas_dtrmm`, `cblas_dtrsm`
(`src/include/float64/names_compat.h:25-47`).  Arguments passed by address are values; dimensions and leading dimensions are not negative.  The result codes of
the library functions are ignored by this layer, so the result is the memory.  The default configuration is `env` with the buffers `cbuf`.
-/

namespace Armas

variable {α : Type}

/-- `toupper(*trans) == 'T' ? ARMAS_TRANS : 0` (`src/compat/gemv.c:35-36` and the other files). -/
def chT (c : Char) : Bool := c.toUpper == 'T'

/-- `toupper(*uplo) == 'L' ? ARMAS_LOWER : ARMAS_UPPER` (`src/compat/syr.c:34`, `src/compat/symv.c:35-43` and the other files). -/
def chU (c : Char) : Bool := !(c.toUpper == 'L')

/-- `toupper(*diag) == 'U' ? ARMAS_UNIT : 0` (`src/compat/trmv.c:45-46` and the other files). -/
def chD (c : Char) : Bool := c.toUpper == 'U'

/-- `toupper(*side) == 'R'` (`src/compat/symm.c:38-47`, `src/compat/trmm.c:36-45`). -/
def chR (c : Char) : Bool := c.toUpper == 'R'

/-- `blas_gemvf` (`src/compat/gemv.c:27-54`) = `dgemv_`. -/
def compatGemv [CommRing α] [DecidableEq α] (ab : α → α) (env : Env) (fuel : Nat) (m : Mem α) (trans : Char) (M N : Nat) (alpha : α) (A lda X : Nat)
    (incx : Int) (beta : α) (Y : Nat) (incy : Int) : Res (Mem α) := do
  let fl : Flags := { transA := chT trans }
  let ylen := if fl.transA then N else M
  let xlen := if fl.transA then M else N
  let a : View := ⟨A, lda, M, N⟩
  let y ← cvecS ylen incy Y
  let x ← cvecS xlen incx X
  let (_, m) ← mvmult ab env fuel m beta y alpha a x fl
  pure m

/-- `blas_symvf` (`src/compat/symv.c:27-59`) = `dsymv_`. -/
def compatSymv [CommRing α] [DecidableEq α] (ab : α → α) (env : Env) (fuel : Nat) (m : Mem α) (uplo : Char) (n : Nat) (alpha : α) (A lda X : Nat)
    (incx : Int) (beta : α) (Y : Nat) (incy : Int) : Res (Mem α) := do
  let fl : Flags := { lower := !chU uplo, upper := chU uplo }
  let a : View := ⟨A, lda, n, n⟩
  let y ← cvecS n incy Y
  let x ← cvecS n incx X
  let (_, m) ← mvmultSym ab env fuel m beta y alpha a x fl
  pure m

/-- `blas_trmvf` (`src/compat/trmv.c:27-55`) = `dtrmv_`. -/
def compatTrmv [CommRing α] [DecidableEq α] (ab : α → α) (env : Env) (fuel : Nat) (m : Mem α) (uplo trans diag : Char) (n A lda X : Nat) (incx : Int) :
    Res (Mem α) := do
  let fl : Flags := { lower := !chU uplo, upper := chU uplo, transA := chT trans, unit := chD diag }
  let a : View := ⟨A, lda, n, n⟩
  let x ← cvecS n incx X
  let (_, m) ← mvmultTrm ab env fuel m x 1 a fl
  pure m

/-- `blas_trsvf` (`src/compat/trsv.c:27-55`) = `dtrsv_`. -/
def compatTrsv [Field α] [DecidableEq α] (ab : α → α) (env : Env) (fuel : Nat) (m : Mem α) (uplo trans diag : Char) (n A lda X : Nat) (incx : Int) :
    Res (Mem α) := do
  let fl : Flags := { lower := !chU uplo, upper := chU uplo, transA := chT trans, unit := chD diag }
  let a : View := ⟨A, lda, n, n⟩
  let x ← cvecS n incx X
  let (_, m) ← mvsolveTrm ab env fuel m x 1 a fl
  pure m

/-- `blas_gerf` (`src/compat/ger.c:27-47`) = `dger_`. -/
def compatGer [CommRing α] (env : Env) (fuel : Nat) (m : Mem α) (M N : Nat) (alpha : α) (X : Nat) (incx : Int) (Y : Nat) (incy : Int) (A lda : Nat) :
    Res (Mem α) := do
  let a : View := ⟨A, lda, M, N⟩
  let y ← cvecS N incy Y
  let x ← cvecS M incx X
  let (_, m) ← mvupdate env fuel m 1 a alpha x y
  pure m

/-- `blas_syrf` (`src/compat/syr.c:27-43`) = `dsyr_`. -/
def compatSyr [CommRing α] (env : Env) (fuel : Nat) (m : Mem α) (uplo : Char) (n : Nat) (alpha : α) (X : Nat) (incx : Int) (A lda : Nat) : Res (Mem α) := do
  let fl : Flags := { lower := !chU uplo, upper := chU uplo }
  let a : View := ⟨A, lda, n, n⟩
  let x ← cvecS n incx X
  let (_, m) ← mvupdateSym env fuel m 1 a alpha x fl
  pure m

/-- `blas_syr2f` (`src/compat/syr2.c:27-48`) = `dsyr2_`. -/
def compatSyr2 [CommRing α] (env : Env) (fuel : Nat) (m : Mem α) (uplo : Char) (n : Nat) (alpha : α) (X : Nat) (incx : Int) (Y : Nat) (incy : Int)
    (A lda : Nat) : Res (Mem α) := do
  let fl : Flags := { lower := !chU uplo, upper := chU uplo }
  let a : View := ⟨A, lda, n, n⟩
  let x ← cvecS n incx X
  let y ← cvecS n incy Y
  let (_, m) ← mvupdate2Sym env fuel m 1 a alpha x y fl
  pure m

/-- `blas_gemmf` (`src/compat/gemm.c:27-45`) = `dgemm_`: the shapes of `a` and `b` do not depend on the transpositions. -/
def compatGemm [CommRing α] [DecidableEq α] (ab : α → α) (cbuf : Option Cache) (m : Mem α) (transa transb : Char) (M N K : Nat) (alpha : α) (A lda B ldb : Nat)
    (beta : α) (C ldc : Nat) : Res (Mem α) := do
  let c : View := ⟨C, ldc, M, N⟩
  let a : View := ⟨A, lda, M, K⟩
  let b : View := ⟨B, ldb, K, N⟩
  let (_, m) ← mult ab m beta c alpha a b { transA := chT transa, transB := chT transb } cbuf
  pure m

/-- `enum CBLAS_TRANSPOSE` (`src/include/compat.h:37`). -/
inductive CTrans | noTrans | trans | conjTrans
  deriving DecidableEq

/-- `cblas_gemm` (`src/compat/gemm.c:49-96`) = `cblas_dgemm`; `row` is `order == CblasRowMajor`, any other value is `CblasColMajor`. -/
def cblasGemm [CommRing α] [DecidableEq α] (ab : α → α) (cbuf : Option Cache) (m : Mem α) (row : Bool) (transa transb : CTrans) (M N K : Nat) (alpha : α)
    (A lda B ldb : Nat) (beta : α) (C ldc : Nat) : Res (Mem α) := do
  let (fl, a, b, c) : Flags × View × View × View :=
    if row then
      ({ transA := transa == .noTrans, transB := transb == .noTrans },
        if transa = .noTrans then ⟨A, lda, M, K⟩ else ⟨A, lda, K, M⟩,
        if transb = .noTrans then ⟨B, ldb, K, N⟩ else ⟨B, ldb, N, K⟩,
        ⟨C, ldc, N, M⟩)
    else
      ({ transA := transa == .trans, transB := transb == .trans },
        if transa = .trans then ⟨A, lda, K, M⟩ else ⟨A, lda, M, K⟩,
        if transb = .trans then ⟨B, ldb, N, K⟩ else ⟨B, ldb, K, N⟩,
        ⟨C, ldc, M, N⟩)
  let (_, m) ← mult ab m beta c alpha a b fl cbuf
  pure m

/-- `blas_symmf` (`src/compat/symm.c:27-52`) = `dsymm_`. -/
def compatSymm [CommRing α] [DecidableEq α] (ab : α → α) (cbuf : Option Cache) (m : Mem α) (side uplo : Char) (M N : Nat) (alpha : α) (A lda B ldb : Nat)
    (beta : α) (C ldc : Nat) : Res (Mem α) := do
  let fl : Flags := { right := chR side, left := !chR side, lower := !chU uplo, upper := chU uplo }
  let c : View := ⟨C, ldc, M, N⟩
  let b : View := ⟨B, ldb, M, N⟩
  let a : View := if chR side then ⟨A, lda, N, N⟩ else ⟨A, lda, M, M⟩
  let (_, m) ← multSym ab m beta c alpha a b fl cbuf
  pure m

/-- `cblas_symm` (`src/compat/symm.c:56-93`) = `cblas_dsymm`; `right` is `side == CblasRight`, `upper` is `uplo == CblasUpper`. -/
def cblasSymm [CommRing α] [DecidableEq α] (ab : α → α) (cbuf : Option Cache) (m : Mem α) (row right upper : Bool) (M N : Nat) (alpha : α) (A lda B ldb : Nat)
    (beta : α) (C ldc : Nat) : Res (Mem α) := do
  let (fl, a, b, c) : Flags × View × View × View :=
    if row then
      ({ left := right, right := !right, lower := upper, upper := !upper },
        if right then ⟨A, lda, N, N⟩ else ⟨A, lda, M, M⟩, ⟨B, ldb, N, M⟩, ⟨C, ldc, N, M⟩)
    else
      ({ left := !right, right := right, lower := !upper, upper := upper },
        if right then ⟨A, lda, M, M⟩ else ⟨A, lda, N, N⟩, ⟨B, ldb, M, N⟩, ⟨C, ldc, M, N⟩)
  let (_, m) ← multSym ab m beta c alpha a b fl cbuf
  pure m

/-- `blas_syrkf` (`src/compat/syrk.c:27-45`) = `dsyrk_`. -/
def compatSyrk [CommRing α] [DecidableEq α] (ab : α → α) (env : Env) (fuel : Nat) (cbuf : Option Cache) (m : Mem α) (uplo trans : Char) (n k : Nat) (alpha : α)
    (A lda : Nat) (beta : α) (C ldc : Nat) : Res (Mem α) := do
  let fl : Flags := { lower := !chU uplo, upper := chU uplo, transA := chT trans }
  let c : View := ⟨C, ldc, n, n⟩
  let a : View := if fl.transA then ⟨A, lda, k, n⟩ else ⟨A, lda, n, k⟩
  let (_, m) ← updateSym ab env fuel m beta c alpha a fl cbuf
  pure m

/-- `blas_syr2kf` (`src/compat/syr2k.c:27-48`) = `dsyrk2_`: `b` is made with the leading dimension of `A`. -/
def compatSyr2k [CommRing α] [DecidableEq α] (ab : α → α) (env : Env) (lb fuel : Nat) (cbuf : Option Cache) (m : Mem α) (uplo trans : Char) (n k : Nat) (alpha : α)
    (A lda B _ldb : Nat) (beta : α) (C ldc : Nat) : Res (Mem α) := do
  let fl : Flags := { lower := !chU uplo, upper := chU uplo, transA := chT trans }
  let c : View := ⟨C, ldc, n, n⟩
  let a : View := if fl.transA then ⟨A, lda, k, n⟩ else ⟨A, lda, n, k⟩
  let b : View := if fl.transA then ⟨B, lda, k, n⟩ else ⟨B, lda, n, k⟩
  let (_, m) ← update2Sym ab env lb fuel m beta c alpha a b fl cbuf
  pure m

/-- `blas_trmmf` (`src/compat/trmm.c:27-54`) = `dtrmm_`. -/
def compatTrmm [CommRing α] [DecidableEq α] (ab : α → α) (env : Env) (fuel : Nat) (cbuf : Option Cache) (m : Mem α) (side uplo transa diag : Char) (M N : Nat)
    (alpha : α) (A lda B ldb : Nat) : Res (Mem α) := do
  let fl : Flags := { right := chR side, left := !chR side, lower := !chU uplo, upper := chU uplo, transA := chT transa, unit := chD diag }
  let b : View := ⟨B, ldb, M, N⟩
  let a : View := if chR side then ⟨A, lda, N, N⟩ else ⟨A, lda, M, M⟩
  let (_, m) ← multTrm ab env fuel m b alpha a fl cbuf
  pure m

/-- The flags and the views made by `cblas_trmm` and `cblas_trsm` (`src/compat/trmm.c:66-103`, `src/compat/trsm.c:66-103`). -/
def cblasTriArgs (row right upper : Bool) (transa : CTrans) (unit : Bool) (M N A lda B ldb : Nat) : Flags × View × View :=
  if row then
    ({ left := right, right := !right, lower := upper, upper := !upper, unit := unit, transA := transa == .noTrans },
      ⟨B, ldb, N, M⟩, if right then ⟨A, lda, M, M⟩ else ⟨A, lda, N, N⟩)
  else
    ({ left := !right, right := right, lower := !upper, upper := upper, unit := unit, transA := transa == .trans },
      ⟨B, ldb, M, N⟩, if right then ⟨A, lda, N, N⟩ else ⟨A, lda, M, M⟩)

/-- `cblas_trmm` (`src/compat/trmm.c:58-105`) = `cblas_dtrmm`. -/
def cblasTrmm [CommRing α] [DecidableEq α] (ab : α → α) (env : Env) (fuel : Nat) (cbuf : Option Cache) (m : Mem α) (row right upper : Bool) (transa : CTrans)
    (unit : Bool) (M N : Nat) (alpha : α) (A lda B ldb : Nat) : Res (Mem α) := do
  let (fl, b, a) := cblasTriArgs row right upper transa unit M N A lda B ldb
  let (_, m) ← multTrm ab env fuel m b alpha a fl cbuf
  pure m

/-- `cblas_trsm` (`src/compat/trsm.c:58-105`) = `cblas_dtrsm`. -/
def cblasTrsm [Field α] [DecidableEq α] (ab : α → α) (env : Env) (fuel : Nat) (cbuf : Option Cache) (m : Mem α) (row right upper : Bool) (transa : CTrans)
    (unit : Bool) (M N : Nat) (alpha : α) (A lda B ldb : Nat) : Res (Mem α) := do
  let (fl, b, a) := cblasTriArgs row right upper transa unit M N A lda B ldb
  let (_, m) ← solveTrm ab env fuel m b alpha a fl cbuf
  pure m

end Armas
