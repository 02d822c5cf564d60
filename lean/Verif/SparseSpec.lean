import Verif.Sparse
import Mathlib.Data.Nat.Count
import Mathlib.Data.Set.Function
import Mathlib.Algebra.BigOperators.Group.Finset.Basic

/-!
# What a sparse matrix contains

A sparse matrix is described by the sequence `e 0, ..., e (N-1)` of its stored entries `(row, column, value)`, in storage order.
-/

namespace Armas

variable {α : Type}

/-- Row, column, value. -/
abbrev Ent (α : Type) := Nat × Nat × α

/-- Row and column exchanged. -/
def Ent.flip (e : Ent α) : Ent α := (e.2.1, e.1, e.2.2)

/-- Compressed storage of `e 0 ... e (N-1)` given as (major index, minor index, value): the entries are ordered by major index, row
(column) `k` occupies the positions from `ptr[k]` = number of entries in the rows (columns) before it, up to `ptr[k+1]`. -/
structure Compressed (ptr ix : Mem Nat) (v : Mem α) (n d N : Nat) (e : Nat → Ent α) : Prop where
  sorted : ∀ p q, p ≤ q → q < N → (e p).1 ≤ (e q).1
  major : ∀ p, p < N → (e p).1 < n
  minor : ∀ p, p < N → (e p).2.1 < d
  ptr : ∀ k, k ≤ n → ptr k = some (Nat.count (fun p => (e p).1 < k) N)
  ix : ∀ p, p < N → ix p = some (e p).2.1
  v : ∀ p, p < N → v p = some (e p).2.2

/-- The matrix `A` stores exactly the entries `e 0 ... e (N-1)`, all inside its dimensions. -/
def SpIs (A : Sp α) (N : Nat) (e : Nat → Ent α) : Prop :=
  A.nnz = N ∧
  match A.kind with
  | .coo => (∀ p, p < N → A.ep p = some (e p)) ∧ ∀ p, p < N → (e p).1 < A.rows ∧ (e p).2.1 < A.cols
  | .csr => A.nptr = A.rows ∧ Compressed A.ptr A.ix A.v A.rows A.cols N e
  | .csc => A.nptr = A.cols ∧ Compressed A.ptr A.ix A.v A.cols A.rows N (fun p => (e p).flip)

/-- The same entries in another order: a one to one correspondence of the positions. -/
def SameEntries (N : Nat) (e e' : Nat → Ent α) : Prop :=
  ∃ σ : Nat → Nat, Set.BijOn σ {p | p < N} {p | p < N} ∧ ∀ p, p < N → e' (σ p) = e p

/-- Inside a row (column) the indices ascend. -/
def Ascending (kind : SpKind) (N : Nat) (e : Nat → Ent α) : Prop :=
  ∀ p q, p < q → q < N →
    match kind with
    | .csc => (e p).2.1 = (e q).2.1 → (e p).1 ≤ (e q).1
    | _ => (e p).1 = (e q).1 → (e p).2.1 ≤ (e q).2.1

/-- Space for a compressed matrix of the given size: what `armassp_new` reserves. -/
structure Room (A : Sp α) (r c N : Nat) (kind : SpKind) : Prop where
  rows : A.rows = r
  cols : A.cols = c
  bytes : spBytes r c N kind ≤ A.nbytes
  plen : A.plen = spMajor kind r c + 1
  vlen : A.vlen = N
  ptr : ∀ k, k ≤ spMajor kind r c → ∃ x, A.ptr k = some x
  ix : ∀ p, p < N → ∃ x, A.ix p = some x
  v : ∀ p, p < N → ∃ x, A.v p = some x

/-- Inside a row (column) the indices ascend strictly. -/
def StrictlyAscending (kind : SpKind) (N : Nat) (e : Nat → Ent α) : Prop :=
  ∀ p q, p < q → q < N →
    match kind with
    | .csc => (e p).2.1 = (e q).2.1 → (e p).1 < (e q).1
    | _ => (e p).1 = (e q).1 → (e p).2.1 < (e q).2.1

/-- The triangular matrix in the triangle `up` of `a`, with unit diagonal if `unit`. -/
def triOf [Zero α] [One α] (up unit : Bool) (a : Nat → Nat → α) (i j : Nat) : α :=
  if i = j then (if unit then 1 else a i j)
  else if (if up then i < j else j < i) then a i j else 0

/-- The matrix element at `i`, `j`: the sum of the entries stored for it. -/
def dense [AddCommMonoid α] (N : Nat) (e : Nat → Ent α) (i j : Nat) : α :=
  ∑ p ∈ Finset.range N, if (e p).1 = i ∧ (e p).2.1 = j then (e p).2.2 else 0

end Armas
