import Verif.SparseMv

/-!
# Incomplete Cholesky factorization

Model of `src/sparse/icholz.c`.  The functions for compressed rows and columns differ in names only: what is said of rows is true for rows of
`csr` and columns of `csc`.  `sq` stands for `sqrt`.
-/

namespace Armas

variable {α : Type}

/-- Loop over `p` in `csr_illtz_lower` and `csc_illtz_upper` (`src/sparse/icholz.c:78-87`, `216-225`): the elements of row `k` behind `p1`, up
to the diagonal.  The index is read before the bound `q1` is tested.  The first argument is `nnz + 1 - p`. -/
def illtRow [Mul α] [Sub α] (A : Sp α) (i k p1 q1 : Nat) : Nat → Nat → Mem α → Res (Mem α)
  | 0, _, _ => .ub
  | f + 1, p, v => do
    let j ← rd A.ix p
    if j ≤ k ∧ p < q1 then do
      let r0 ← rd A.ptr j
      let r1 ← rd A.ptr (j + 1)
      match ← spNz A i r1 (A.nnz - r0) r0 with
      | none => illtRow A i k p1 q1 f (p + 1) v
      | some p2 => do
        let t ← rd v p
        let a ← rd v p1
        let b ← rd v p2
        let v ← wr v p (t - a * b)
        illtRow A i k p1 q1 f (p + 1) v
    else pure v

/-- Body of the loop over `k` in `csr_illtz_lower` and `csc_illtz_upper` (`src/sparse/icholz.c:71-88`, `209-226`). -/
def illtCol [Mul α] [Sub α] [Div α] (A : Sp α) (i : Nat) (a11 : α) (k : Nat) (v : Mem α) : Res (Mem α) := do
  let q0 ← rd A.ptr k
  let q1 ← rd A.ptr (k + 1)
  match ← spNz A i q1 (A.nnz - q0) q0 with
  | none => pure v
  | some p1 => do
    let t ← rd v p1
    let v ← wr v p1 (t / a11)
    illtRow A i k p1 q1 (A.nnz + 1 - (p1 + 1)) (p1 + 1) v

/-- `csr_illtz_lower` (`src/sparse/icholz.c:53-92`) with `n1 = n2 = rows` and `csc_illtz_upper` (`src/sparse/icholz.c:192-229`) with
`n1 = rows`, `n2 = cols`: undefined if the assertion on the diagonal fails. -/
def illtzLeft [Mul α] [Sub α] [Div α] (sq : α → α) (A : Sp α) (n1 n2 : Nat) : Res (Sp α) := do
  let (_, v) ← forUp 0 n1 1 (fun i v => do
    let q ← rd A.ptr i
    let p0 ← skipUp A.ix i (A.nnz - q) q
    let c ← rd A.ix p0
    if c ≠ i then .ub
    else do
      let t ← rd v p0
      let v ← wr v p0 (sq t)
      let (_, v) ← forUp (i + 1) n2 1 (fun k v => illtCol A i (sq t) k v) v
      pure v) A.v
  pure { A with v := v }

/-- Search for the diagonal of row `j` in `csr_illtz_upper` and `csc_illtz_lower` (`src/sparse/icholz.c:120-122`, `168-170`).  The index is
read before the bound `q1` is tested.  The first argument is `nnz - p`. -/
def illtSkip (ix : Mem Nat) (j q1 : Nat) : Nat → Nat → Res Nat
  | 0, _ => .ub
  | f + 1, p => do
    let c ← rd ix p
    if c < j ∧ p < q1 then illtSkip ix j q1 f (p + 1) else pure p

/-- The merge loop over `p1`, `p2` in `csr_illtz_upper` and `csc_illtz_lower` (`src/sparse/icholz.c:124-137`, `172-185`).  Every round
decreases the first argument `(ie - p1) + (je - p2)`. -/
def illtMerge [Mul α] [Sub α] (ix : Mem Nat) (p ie je : Nat) : Nat → Nat → Nat → Mem α → Res (Mem α)
  | 0, _, _, v => pure v
  | f + 1, p1, p2, v =>
    if p1 < ie ∧ p2 < je then do
      let c1 ← rd ix p1
      let c2 ← rd ix p2
      if c1 = c2 then do
        let t ← rd v p2
        let a ← rd v p1
        let b ← rd v p
        let v ← wr v p2 (t - a * b)
        illtMerge ix p ie je f (p1 + 1) (p2 + 1) v
      else if c1 < c2 then illtMerge ix p ie je f (p1 + 1) p2 v
      else illtMerge ix p ie je f p1 (p2 + 1) v
    else pure v

/-- Body of the second loop over `p` in `csr_illtz_upper` and `csc_illtz_lower` (`src/sparse/icholz.c:116-138`, `164-186`). -/
def illtUpdate [Mul α] [Sub α] (A : Sp α) (p0 ie p : Nat) (v : Mem α) : Res (Mem α) := do
  let j ← rd A.ix p
  let q0 ← rd A.ptr j
  let q1 ← rd A.ptr (j + 1)
  let p2 ← illtSkip A.ix j q1 (A.nnz - q0) q0
  illtMerge A.ix p ie q1 ((ie - (p0 + 1)) + (q1 - p2)) (p0 + 1) p2 v

/-- `csr_illtz_upper` (`src/sparse/icholz.c:94-141`) with `n1 = rows` and `csc_illtz_lower` (`src/sparse/icholz.c:143-190`) with
`n1 = cols`: undefined if the assertion on the diagonal fails. -/
def illtzRight [Mul α] [Sub α] [Div α] (sq : α → α) (A : Sp α) (n1 : Nat) : Res (Sp α) := do
  let (_, v) ← forUp 0 n1 1 (fun i v => do
    let q ← rd A.ptr i
    let p0 ← skipUp A.ix i (A.nnz - q) q
    let c ← rd A.ix p0
    if c ≠ i then .ub
    else do
      let t ← rd v p0
      let v ← wr v p0 (sq t)
      let ie ← rd A.ptr (i + 1)
      let (_, v) ← forUp (p0 + 1) ie 1 (fun p v => do
        let t' ← rd v p
        wr v p (t' / sq t)) v
      let (_, v) ← forUp (p0 + 1) ie 1 (fun p v => illtUpdate A p0 ie p v) v
      pure v) A.v
  pure { A with v := v }

/-- `armassp_icholz` (`src/sparse/icholz.c:233-251`).  With both or none of `ARMAS_UPPER` and `ARMAS_LOWER` the default case (lower) is taken.
The format is not checked, everything that is not `csr` is taken for `csc`. -/
def spIcholz [Mul α] [Sub α] [Div α] (sq : α → α) (A : Sp α) (upper lower : Bool) : Res (Int × Sp α) := do
  let M ← (if upper && !lower then (if A.kind = .csr then illtzRight sq A A.rows else illtzLeft sq A A.rows A.cols)
    else (if A.kind = .csr then illtzLeft sq A A.rows A.rows else illtzRight sq A A.cols))
  pure (0, M)

/-- `precond_icholz` (`src/sparse/icholz.c:254-271`).  `same` is the test `z == x` of the two pointers, `upper`, `lower`, `trans` and `unit` are
the flags given to `armassp_init_icholz` (`src/sparse/icholz.c:301-312`); the return codes of copy and solve are ignored. -/
def precondIchol [Mul α] [Add α] [Sub α] [Div α] [Zero α] [One α] (Z : View) (M : Sp α) (X : View) (same upper lower trans unit : Bool)
    (m : Mem α) : Res (Int × Mem α) := do
  let (_, m) ← precondCopy Z X same m
  if upper then do
    let (_, m) ← spMvsolveTrm Z 1 M upper lower true unit m
    let (_, m) ← spMvsolveTrm Z 1 M upper lower trans unit m
    pure (0, m)
  else do
    let (_, m) ← spMvsolveTrm Z 1 M upper lower trans unit m
    let (_, m) ← spMvsolveTrm Z 1 M upper lower true unit m
    pure (0, m)

/-- `precond_icholz_partial` (`src/sparse/icholz.c:273-284`): `upper` to `unit` are the flags of the preconditioner, `fu` to `fn` those of the
call. -/
def precondIcholPartial [Mul α] [Add α] [Sub α] [Div α] [Zero α] [One α] (Z : View) (M : Sp α) (X : View)
    (same upper lower trans unit fu fl ft fn : Bool) (m : Mem α) : Res (Int × Mem α) := do
  let (_, m) ← precondCopy Z X same m
  let (_, m) ← spMvsolveTrm Z 1 M (upper || fu) (lower || fl) (trans || ft) (unit || fn) m
  pure (0, m)

end Armas
