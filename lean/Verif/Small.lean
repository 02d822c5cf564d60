import Verif.Givens
import Verif.Eft
import Mathlib.Analysis.Real.Sqrt

/-!
# Model of the 2x2 functions (`src/lapack/aux.c`, `src/lapack/qdroot.c`, `src/lapack/auxiliary.h`)

Exact real arithmetic with the real square root; the functions with output pointers return the values they store.  A division by zero, which
gives an infinity or a NaN, is `none`; so are all values computed from it.  There is one zero, whose sign bit is not set.
-/

namespace Armas

/-- Division (not a function of the repository): `none` for an infinity or NaN. -/
noncomputable def qdiv (x y : ℝ) : Option ℝ := if y = 0 then none else some (x / y)

/-- `sign` (`src/lapack/aux.c:156-159`) and `COPYSIGN` of a value that is not negative. -/
noncomputable def fsign (a b : ℝ) : ℝ := if b < 0 then -a else a

/-- `HYPOT`. (`src/include/float64/names_base.h`) -/
noncomputable def fhypot (a b : ℝ) : ℝ := Real.sqrt (a * a + b * b)

/-- `armas_bdsvd2x2` (`src/lapack/aux.c:104-154`); the values `smin`, `smax`. -/
noncomputable def bdsvd2x2 (f g h : ℝ) : Option (ℝ × ℝ) := do
  let ga := |g|
  let fhmax := if |f| > |h| then |f| else |h|
  let fhmin := if |f| > |h| then |h| else |f|
  if fhmin = 0 then
    if fhmax = 0 then pure (0, ga)
    else do
      let x := if fhmax > ga then fhmax else ga
      let n := if fhmax > ga then ga else fhmax
      let q ← qdiv n x
      pure (0, x * Real.sqrt (1 + q * q))
  else do
    let q ← qdiv fhmin fhmax
    let t := 1 + q
    let d ← qdiv (fhmax - fhmin) fhmax
    if ga < fhmax then do
      let gs ← qdiv ga fhmax
      let C := (Real.sqrt (gs * gs + t * t) + Real.sqrt (gs * gs + d * d)) / 2
      let s ← qdiv fhmin C
      pure (s, fhmax * C)
    else do
      let gs ← qdiv fhmax ga
      if gs = 0 then do
        let s ← qdiv (fhmin * fhmax) ga
        pure (s, ga)
      else do
        let C ← qdiv (Real.sqrt (1 + gs * t * (gs * t)) + Real.sqrt (1 + gs * d * (gs * d))) (2 * gs)
        let s ← qdiv fhmin C
        pure (s, fhmax * C)

/-- What `armas_bdsvd2x2_vec` stores. (`src/lapack/aux.c:186-188`) -/
structure Svd2 where
  ssmin : ℝ
  ssmax : ℝ
  cosl : ℝ
  sinl : ℝ
  cosr : ℝ
  sinr : ℝ

/-- The part before the label `signs` of `armas_bdsvd2x2_vec` (`src/lapack/aux.c:193-271`) with the larger diagonal element `F` and the smaller
one `H`; the values `smin`, `smax`, `clt`, `slt`, `crt`, `srt`. -/
noncomputable def svdCore (eps F g H : ℝ) : Option (ℝ × ℝ × ℝ × ℝ × ℝ × ℝ) := do
  let amax := |F|
  let amin := |H|
  let ga := |g|
  if ga = 0 then pure (amin, amax, 1, 0, 1, 0)
  else do
    let q ← qdiv amax ga
    if ga > amax ∧ q < eps then do
      let smin ← (if amin > 1 then do
          let x ← qdiv ga amin
          qdiv amax x
        else pure (q * amin))
      let slt ← qdiv H g
      let crt ← qdiv F g
      pure (smin, ga, 1, slt, crt, 1)
    else do
      let d := amax - amin
      let l ← (if d = amax then pure 1 else qdiv d amax)
      let m ← qdiv g F
      let t := 2 - l
      let m2 := m * m
      let s := Real.sqrt (t * t + m2)
      let r := if l = 0 then |m| else Real.sqrt (l * l + m2)
      let a := 1 / 2 * (s + r)
      let smin ← qdiv amin a
      let smax := amax * a
      let t ← (if m2 = 0 then
          if l = 0 then pure (fsign 2 F * fsign 1 g)
          else do
            let x ← qdiv g (fsign d F)
            let y ← qdiv m t
            pure (x + y)
        else do
          let x ← qdiv m (s + t)
          let y ← qdiv m (r + l)
          pure ((x + y) * (1 + a)))
      let l := Real.sqrt (t * t + 4)
      let crt ← qdiv 2 l
      let srt ← qdiv t l
      let clt ← qdiv (crt + srt * m) a
      let q ← qdiv H F
      let slt ← qdiv (q * srt) a
      pure (smin, smax, clt, slt, crt, srt)

/-- `armas_bdsvd2x2_vec` (`src/lapack/aux.c:186-300`); `eps` is the constant `EPS`. -/
noncomputable def bdsvd2x2Vec (eps f g h : ℝ) : Option Svd2 := do
  let F := if |f| > |h| then f else h
  let H := if |f| > |h| then h else f
  let (smin, smax, clt, slt, crt, srt) ← svdCore eps F g H
  let cosr := if |f| > |h| then crt else slt
  let sinr := if |f| > |h| then srt else clt
  let cosl := if |f| > |h| then clt else srt
  let sinl := if |f| > |h| then slt else crt
  let ts := if |f| > |h| then fsign 1 sinr * fsign 1 sinl * fsign 1 h else fsign 1 cosr * fsign 1 cosl * fsign 1 f
  let ts := if |g| > |F| then fsign 1 sinr * fsign 1 cosl * fsign 1 g else ts
  pure ⟨fsign smin (ts * fsign 1 f * fsign 1 h), fsign smax ts, cosl, sinl, cosr, sinr⟩

/-- `armas_sym_eigen2x2` (`src/lapack/aux.c:329-345`); the values `z1`, `z2`. -/
noncomputable def symEigen2x2 (a b c : ℝ) : Option (ℝ × ℝ) := do
  let acmax := if |c| > |a| then c else a
  let acmin := if |c| > |a| then a else c
  let T := a + c
  let Zt := T + fsign (fhypot |a - c| |b + b|) T
  let x ← qdiv acmax Zt
  let y ← qdiv b Zt
  pure (1 / 2 * Zt, 2 * (x * acmin - y * b))

/-- The eigenvector computed at the end of `armas_sym_eigen2x2vec` (`src/lapack/aux.c:388-391`): `cs`, `sn`. -/
noncomputable def symVec2x2 (a b z1 : ℝ) : Option (ℝ × ℝ) := do
  let x ← qdiv (z1 - a) b
  let ht := fhypot 1 x
  let cs ← qdiv 1 ht
  let sn ← qdiv (z1 - a) (b * ht)
  pure (cs, sn)

/-- `armas_sym_eigen2x2vec` (`src/lapack/aux.c:370-392`), whose first part is `armas_sym_eigen2x2`; the values `z1`, `z2` and `cs`, `sn`.  If the
vector is not finite, `z1` and `z2` still are. -/
noncomputable def symEigen2x2Vec (a b c : ℝ) : Option (ℝ × ℝ × Option (ℝ × ℝ)) := do
  let (z1, z2) ← symEigen2x2 a b c
  pure (z1, z2, symVec2x2 a b z1)

/-- `wilkinson_shift` (`src/lapack/auxiliary.h:26-33`). -/
noncomputable def wilkinsonShift (tn1 tnn1 tn : ℝ) : Option ℝ := do
  let d := (tn1 - tn) / 2
  let tsq := fhypot d tnn1
  let x ← qdiv tnn1 (|d| + tsq)
  pure (tn - (if d < 0 then -(|x * tnn1|) else |x * tnn1|))

/-- `discriminant` in exact arithmetic (`src/lapack/qdroot.c:55-68,104-126`): all versions compute this. -/
def discr (a b c : ℝ) : ℝ := b * b - a * c

/-- `armas_qdroots` (`src/lapack/qdroot.c:136-154`): the value returned and `x1`, `x2`. -/
noncomputable def qdroots (a b c : ℝ) : Option (Int × ℝ × ℝ) := do
  let d := discr a b c
  if d < 0 then do
    let r ← qdiv b a
    let s ← qdiv (Real.sqrt |d|) a
    pure (1, -r / 2, s / 2)
  else do
    let signb : ℝ := if b < 0 then -1 else 1
    let s := Real.sqrt d * (signb + (if b = 0 then 1 else 0)) + b
    let x1 ← qdiv s a
    let x2 ← qdiv c s
    pure (0, x1, x2)

/-- `compute_bsvd_shift` (`src/lapack/bdsvd_gr.c:97-112`). -/
noncomputable def bsvdShift (e f g h : ℝ) : Option ℝ := do
  let a := f * f + e * e
  let b := g * f
  let c := h * h + g * g
  let (_, e1, e2) ← qdroots 1 ((a + c) / 2) (a * c - b * b)
  pure (if |e1| - c < |e2| - c then e1 else e2)

/-- The `discriminant` with fused multiply-add (`src/lapack/qdroot.c:54-68`), every operation rounded by `rn`; the addition of zero to the products
does not change them. -/
def discrFma (rn : ℚ → ℚ) (a b c : ℚ) : ℚ :=
  let P := rn (b * b)
  let Q := rn (a * c)
  let dP := rn (b * b - P)
  let dQ := rn (a * c - Q)
  rn (rn (P - Q) + rn (dP - dQ))

/-- `eigen_sym_small` (`src/lapack/evd.c:36-64`), `D` a vector; `none` if numbers that are not finite are stored, otherwise the memory
afterwards. -/
noncomputable def eigenSymSmall (m : Mem ℝ) (D A : View) (upper wantv : Bool) : Res (Option (Mem ℝ)) := do
  let d0 ← rd m (A.at' 0 0)
  let d1 ← rd m (A.at' 1 1)
  let b0 ← rd m (if upper then A.at' 0 1 else A.at' 1 0)
  match symEigen2x2Vec d0 b0 d1 with
  | none => pure none
  | some (e0, e1, v) => do
    let m ← wr m (D.vat 0) e0
    let m ← wr m (D.vat 1) e1
    if wantv then
      match v with
      | none => pure none
      | some (cs, sn) => do
        let m ← wr m (A.at' 0 0) 1
        let m ← wr m (A.at' 1 1) 1
        let m ← wr m (A.at' 0 1) 0
        let m ← wr m (A.at' 1 0) 0
        let m ← gvOne false m A cs sn 0 1 0 A.rows
        pure (some m)
    else pure (some m)

end Armas
