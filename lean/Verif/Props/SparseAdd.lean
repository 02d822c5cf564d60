import Verif.SparseAddRows
import Verif.Props.SparseMv

/-!
# Property C42: sparse sum and product
-/

namespace Armas.Props

open Armas Finset

variable {α : Type}

/-- `A` is a compressed matrix of size `r` × `c` with the entries `e 0 ... e (N-1)`. -/
structure CMat (A : Sp α) (r c N : Nat) (e : Nat → Ent α) : Prop where
  is : SpIs A N e
  kind : A.kind ≠ .coo
  rows : A.rows = r
  cols : A.cols = c

/-- What the result must be: a matrix with the size and format of `C`, at most one entry per position, whose elements are `D`. -/
def ResultIs [AddCommMonoid α] (C C' : Sp α) (D : Nat → Nat → α) : Prop :=
  ∃ N e, SpIs C' N e ∧ C'.kind = C.kind ∧ C'.rows = C.rows ∧ C'.cols = C.cols ∧ C'.size = C.size ∧
    (∀ p q, p < N → q < N → (e p).1 = (e q).1 → (e p).2.1 = (e q).2.1 → p = q) ∧
    ∀ i j, i < C.rows → j < C.cols → dense N e i j = D i j

/-- Elements of the transposed matrix if `t`. -/
def opd (t : Bool) (a : Nat → Nat → α) (i j : Nat) : α := if t then a j i else a i j

/-- The positions of the entries. -/
def posOf (N : Nat) (e : Nat → Ent α) : Finset (Nat × Nat) := (range N).image (fun p => ((e p).1, (e p).2.1))

/-- The last element (bottom right) is stored. -/
def LastStored (r c N : Nat) (e : Nat → Ent α) : Prop := ∃ p, p < N ∧ (e p).1 + 1 = r ∧ (e p).2.1 + 1 = c

private theorem mem_posOf {N : Nat} {e : Nat → Ent α} {p : Nat} (hp : p < N) : ((e p).1, (e p).2.1) ∈ posOf N e :=
  mem_image.mpr ⟨p, mem_range.mpr hp, rfl⟩

private theorem dflip [AddCommMonoid α] (N : Nat) (e : Nat → Ent α) (i j : Nat) : dense N (fun p => (e p).flip) i j = dense N e j i := by
  unfold dense Ent.flip
  refine sum_congr rfl fun p _ => ?_
  dsimp only
  simp only [and_comm]

private theorem res_csr [CommRing α] {C C' : Sp α} (hk : C.kind = .csr) {D : Nat → Nat → α}
    (h : ∃ N e, SameHead C C' ∧ C'.nnz = N ∧ C'.nptr = C.rows ∧ Compressed C'.ptr C'.ix C'.v C.rows C.cols N e ∧
      (∀ p q, p < N → q < N → (e p).1 = (e q).1 → (e p).2.1 = (e q).2.1 → p = q) ∧
      ∀ r c, r < C.rows → c < C.cols → dense N e r c = D r c) : ResultIs C C' D := by
  obtain ⟨N, e, h1, h2, h3, h4, h5, h6⟩ := h
  refine ⟨N, e, ⟨h2, ?_⟩, h1.1, h1.2.1, h1.2.2.1, h1.2.2.2, h5, h6⟩
  rw [h1.1, hk]
  dsimp only
  rw [h1.2.1, h1.2.2.1]
  exact ⟨h3, h4⟩

private theorem res_csc [CommRing α] {C C' : Sp α} (hk : C.kind = .csc) {D : Nat → Nat → α}
    (h : ∃ N e, SameHead C C' ∧ C'.nnz = N ∧ C'.nptr = C.cols ∧ Compressed C'.ptr C'.ix C'.v C.cols C.rows N e ∧
      (∀ p q, p < N → q < N → (e p).1 = (e q).1 → (e p).2.1 = (e q).2.1 → p = q) ∧
      ∀ r c, r < C.cols → c < C.rows → dense N e r c = D c r) : ResultIs C C' D := by
  obtain ⟨N, e, h1, h2, h3, h4, h5, h6⟩ := h
  refine ⟨N, fun p => (e p).flip, ⟨h2, ?_⟩, h1.1, h1.2.1, h1.2.2.1, h1.2.2.2, fun p q hp hq a b => h5 p q hp hq b a, fun i j hi hj => ?_⟩
  · rw [h1.1, hk]
    dsimp only
    rw [h1.2.1, h1.2.2.1]
    exact ⟨h3, h4⟩
  · rw [dflip, h6 j i hj hi]

private theorem CMat.csr {A : Sp α} {r c N : Nat} {e : Nat → Ent α} (h : CMat A r c N e) (hk : A.kind = .csr) : Compressed A.ptr A.ix A.v r c N e := by
  obtain ⟨⟨-, h2⟩, -, h3, h4⟩ := h
  rw [hk] at h2
  rw [h3, h4] at h2
  exact h2.2

private theorem CMat.csc {A : Sp α} {r c N : Nat} {e : Nat → Ent α} (h : CMat A r c N e) (hk : A.kind = .csc) :
    Compressed A.ptr A.ix A.v c r N (fun p => (e p).flip) := by
  obtain ⟨⟨-, h2⟩, -, h3, h4⟩ := h
  rw [hk] at h2
  rw [h3, h4] at h2
  exact h2.2

private theorem strict_csr [CommRing α] {N : Nat} {e : Nat → Ent α} (h : StrictlyAscending .csr N e) : Strict N e := h

private theorem strict_csc [CommRing α] {N : Nat} {e : Nat → Ent α} (h : StrictlyAscending .csc N e) : Strict N (fun p => (e p).flip) := h

private theorem corner_flip [CommRing α] {r c N : Nat} {e : Nat → Ent α} (h : LastStored r c N e) : Corner c r N (fun p => (e p).flip) := by
  obtain ⟨p, a, b, d⟩ := h; exact ⟨p, a, d, b⟩

private theorem swap_card {F : Finset (Nat × Nat)} {k : Nat} (h : F.card < k) : (F.image Prod.swap).card < k := lt_of_le_of_lt card_image_le h

private theorem mem_swap {F : Finset (Nat × Nat)} {i j : Nat} (h : (j, i) ∈ F) : (i, j) ∈ F.image Prod.swap := mem_image.mpr ⟨(j, i), h, rfl⟩

private theorem make_ok {n len : Nat} (junk : Junk α) (h : accBytes n ≤ len) : ∃ acc, accMake n len junk = some acc := by
  unfold accMake
  rw [if_neg (by omega)]
  exact ⟨_, rfl⟩

private theorem wset_self (W : WBuf) : wsetpos W (wpos W) = W := by unfold wsetpos wpos; split <;> rfl

/-! ## Sum -/

private theorem addTo_frame [Mul α] [Add α] [One α] {A B C : Sp α} {W : WBuf} {junk : Junk α} {alpha beta : α} {ta tb : Bool} (hk : A.kind = B.kind)
    (hr : A.rows = B.rows) (hc : A.cols = B.cols) (hW : W.bytes ≠ 0) (hW' : accNeed C ≤ wbytes W) {Q : Sp α → Prop}
    (h : ∀ acc len, accMake (accDim C) len junk = some acc → Runs (addSwitch C alpha A beta B ta tb acc) Q) :
    Runs (spAddTo (some C) alpha A beta B ta tb W junk) (fun r => r.1 = 0 ∧ (∃ C', r.2.1 = some C' ∧ Q C') ∧ r.2.2 = W) := by
  unfold spAddTo
  rw [if_neg (not_not.mpr hk), if_neg (by omega)]
  dsimp only
  rw [if_neg hW, if_neg (by omega)]
  obtain ⟨acc, hacc⟩ := make_ok (n := accDim C) junk hW'
  rw [hacc]
  dsimp only
  refine Runs.bind (h acc _ hacc) fun C' hC' => Runs.pure ⟨rfl, ⟨C', rfl, hC'⟩, wset_self W⟩

/-- C42 for `armassp_addto_w` without transposed operands: with enough workspace and room for one element more than the result has (see
`C42_fit_false`) it returns 0 and the result holds `alpha*A + beta*B`. -/
theorem C42_addto_partial [CommRing α] {A B C : Sp α} {m n NA NB : Nat} {ea eb : Nat → Ent α} (hA : CMat A m n NA ea) (hB : CMat B m n NB eb)
    (hAB : A.kind = B.kind) (hCA : C.kind = A.kind) (hCr : C.rows = m) (hCc : C.cols = n) (hS : Space C (spMajor C.kind m n))
    (hsize : (posOf NA ea ∪ posOf NB eb).card < C.size) (alpha beta : α) {W : WBuf} (junk : Junk α) (hW : W.bytes ≠ 0) (hW' : accNeed C ≤ wbytes W) :
    Runs (spAddTo (some C) alpha A beta B false false W junk) (fun r => r.1 = 0 ∧
      (∃ C', r.2.1 = some C' ∧ ResultIs C C' (fun i j => alpha * dense NA ea i j + beta * dense NB eb i j)) ∧ r.2.2 = W) := by
  refine addTo_frame hAB (by rw [hA.rows, hB.rows]) (by rw [hA.cols, hB.cols]) hW hW' fun acc len hacc => ?_
  unfold addSwitch
  rw [if_neg (by simp), if_neg (by simp)]
  cases hk : A.kind with
  | coo => exact absurd hk hA.kind
  | csr =>
    rw [if_neg (by simp)]
    have hCk : C.kind = .csr := by rw [hCA, hk]
    rw [hCk] at hS
    unfold accDim at hacc
    rw [if_pos hCk] at hacc
    rw [hA.rows, ← hCr]
    unfold addNN
    refine (accRows_spec (n := C.cols) (F := posOf NA ea ∪ posOf NB eb) (by rw [hCr]; exact hS) hsize hacc 1
      (t := fun i j => alpha * dense NA ea i j + beta * dense NB eb i j) ?_).mono fun C' h => res_csr hCk (by simpa using h)
    intro i acc hi h
    rw [hCc] at h ⊢
    rw [hCr] at hi
    refine Runs.bind (addRow_spec (hA.csr hk) hi h (fun p hp e => ?_) alpha) fun a ha => ?_
    · rw [mem_union]; left; rw [← e]; exact mem_posOf hp
    · refine (addRow_spec (hB.csr (by rw [← hAB, hk])) hi ha (fun p hp e => ?_) beta).mono fun a ha => ha.congr fun c _ => by rw [zero_add]
      rw [mem_union]; right; rw [← e]; exact mem_posOf hp
  | csc =>
    rw [if_pos rfl]
    have hCk : C.kind = .csc := by rw [hCA, hk]
    rw [hCk] at hS
    unfold accDim at hacc
    rw [if_neg (by rw [hCk]; simp)] at hacc
    rw [hA.cols, ← hCc]
    unfold addNN
    refine (accRows_spec (n := C.rows) (F := (posOf NA ea ∪ posOf NB eb).image Prod.swap) (by rw [hCc]; exact hS) (swap_card hsize) hacc 1
      (t := fun i j => alpha * dense NA ea j i + beta * dense NB eb j i) ?_).mono fun C' h => res_csc hCk (by simpa using h)
    intro i acc hi h
    rw [hCr] at h ⊢
    rw [hCc] at hi
    refine Runs.bind (addRow_spec (hA.csc hk) hi h (fun p hp e => ?_) alpha) fun a ha => ?_
    · refine mem_swap (mem_union_left _ ?_); rw [← e]; exact mem_posOf hp
    · refine (addRow_spec (hB.csc (by rw [← hAB, hk])) hi ha (fun p hp e => ?_) beta).mono fun a ha => ha.congr fun c _ => by rw [zero_add, dflip, dflip]
      refine mem_swap (mem_union_right _ ?_); rw [← e]; exact mem_posOf hp

/-- The same with `B` transposed, for square matrices, if the indices of `B` ascend strictly and its last element is stored (otherwise the search
for an element reads behind the index array, see `C42_search_false`). -/
theorem C42_addto_nt_partial [CommRing α] {A B C : Sp α} {n NA NB : Nat} {ea eb : Nat → Ent α} (hA : CMat A n n NA ea) (hB : CMat B n n NB eb)
    (hAB : A.kind = B.kind) (hCA : C.kind = A.kind) (hCr : C.rows = n) (hCc : C.cols = n) (hS : Space C n)
    (hst : StrictlyAscending B.kind NB eb) (hlast : LastStored n n NB eb)
    (hsize : (posOf NA ea ∪ (posOf NB eb).image Prod.swap).card < C.size) (alpha beta : α) {W : WBuf} (junk : Junk α) (hW : W.bytes ≠ 0)
    (hW' : accNeed C ≤ wbytes W) :
    Runs (spAddTo (some C) alpha A beta B false true W junk) (fun r => r.1 = 0 ∧
      (∃ C', r.2.1 = some C' ∧ ResultIs C C' (fun i j => alpha * dense NA ea i j + beta * dense NB eb j i)) ∧ r.2.2 = W) := by
  refine addTo_frame hAB (by rw [hA.rows, hB.rows]) (by rw [hA.cols, hB.cols]) hW hW' fun acc len hacc => ?_
  unfold addSwitch
  rw [if_pos (by simp)]
  cases hk : A.kind with
  | coo => exact absurd hk hA.kind
  | csr =>
    rw [if_neg (by simp)]
    have hCk : C.kind = .csr := by rw [hCA, hk]
    have hBk : B.kind = .csr := by rw [← hAB, hk]
    rw [hBk] at hst
    unfold accDim at hacc
    rw [if_pos hCk] at hacc
    rw [hA.rows, hB.rows]
    unfold addNT
    refine (accRows_spec (n := C.cols) (F := posOf NA ea ∪ (posOf NB eb).image Prod.swap) hS hsize hacc 1
      (t := fun i j => alpha * dense NA ea i j + beta * dense NB eb j i) ?_).mono fun C' h => res_csr hCk (by rw [hCr]; simpa using h)
    intro i acc hi h
    rw [hCc] at h ⊢
    refine Runs.bind (addRow_spec (hA.csr hk) hi h (fun p hp e => ?_) alpha) fun a ha => ?_
    · rw [mem_union]; left; rw [← e]; exact mem_posOf hp
    · refine (addNz_spec (hB.csr hBk) hB.is.1 (strict_csr hst) hlast hi (le_refl _) ha (fun p hp e => ?_) beta).mono fun a ha => ha.congr fun c hc => by
        rw [zero_add, if_pos hc]
      rw [mem_union]; right; rw [← e]; exact mem_swap (mem_posOf hp)
  | csc =>
    rw [if_pos rfl]
    have hCk : C.kind = .csc := by rw [hCA, hk]
    have hBk : B.kind = .csc := by rw [← hAB, hk]
    rw [hBk] at hst
    unfold accDim at hacc
    rw [if_neg (by rw [hCk]; simp)] at hacc
    rw [hA.cols, hB.cols]
    unfold addNT
    refine (accRows_spec (n := C.rows) (F := (posOf NA ea ∪ (posOf NB eb).image Prod.swap).image Prod.swap) hS (swap_card hsize) hacc 1
      (t := fun i j => alpha * dense NA ea j i + beta * dense NB eb i j) ?_).mono fun C' h => res_csc hCk (by rw [hCc]; simpa using h)
    intro i acc hi h
    rw [hCr] at h ⊢
    refine Runs.bind (addRow_spec (hA.csc hk) hi h (fun p hp e => ?_) alpha) fun a ha => ?_
    · refine mem_swap (mem_union_left _ ?_); rw [← e]; exact mem_posOf hp
    · refine (addNz_spec (hB.csc hBk) hB.is.1 (strict_csc hst) (corner_flip hlast) hi (le_refl _) ha (fun p hp e => ?_) beta).mono fun a ha =>
        ha.congr fun c hc => by rw [zero_add, if_pos hc, dflip, dflip]
      refine mem_swap (mem_union_right _ (mem_swap ?_))
      rw [← e]; exact mem_posOf hp

/-- With `A` transposed in compressed row format the elements of `A` are multiplied by `beta` (so the claim holds for `alpha = beta`, and is
false otherwise: `C42_addto_tn_false`). -/
theorem C42_addto_tn_partial [CommRing α] {A B C : Sp α} {n NA NB : Nat} {ea eb : Nat → Ent α} (hA : CMat A n n NA ea) (hB : CMat B n n NB eb)
    (hk : A.kind = .csr) (hBk : B.kind = .csr) (hCk : C.kind = .csr) (hCr : C.rows = n) (hCc : C.cols = n) (hS : Space C n)
    (hst : StrictlyAscending .csr NA ea) (hlast : LastStored n n NA ea)
    (hsize : ((posOf NA ea).image Prod.swap ∪ posOf NB eb).card < C.size) (alpha beta : α) {W : WBuf} (junk : Junk α) (hW : W.bytes ≠ 0)
    (hW' : accNeed C ≤ wbytes W) :
    Runs (spAddTo (some C) alpha A beta B true false W junk) (fun r => r.1 = 0 ∧
      (∃ C', r.2.1 = some C' ∧ ResultIs C C' (fun i j => beta * dense NA ea j i + beta * dense NB eb i j)) ∧ r.2.2 = W) := by
  refine addTo_frame (by rw [hk, hBk]) (by rw [hA.rows, hB.rows]) (by rw [hA.cols, hB.cols]) hW hW' fun acc len hacc => ?_
  unfold addSwitch
  rw [if_neg (by simp), if_pos (by simp), if_neg (by rw [hk]; simp)]
  unfold accDim at hacc
  rw [if_pos hCk] at hacc
  rw [hA.rows]
  unfold addTN
  refine (accRows_spec (n := C.cols) (F := (posOf NA ea).image Prod.swap ∪ posOf NB eb) hS hsize hacc 1
    (t := fun i j => beta * dense NA ea j i + beta * dense NB eb i j) ?_).mono fun C' h => res_csr hCk (by rw [hCr]; simpa using h)
  intro i acc hi h
  rw [hCc] at h ⊢
  refine Runs.bind (addNz_spec (hA.csr hk) hA.is.1 (strict_csr hst) hlast hi (le_refl _) h (fun p hp e => ?_) beta) fun a ha => ?_
  · rw [mem_union]; left; rw [← e]; exact mem_swap (mem_posOf hp)
  · refine (addRow_spec (hB.csr hBk) hi ha (fun p hp e => ?_) beta).mono fun a ha => ha.congr fun c hc => by rw [zero_add, if_pos hc]
    rw [mem_union]; right; rw [← e]; exact mem_posOf hp

/-- Operands of different format or size are rejected before anything is written; a workspace of size zero asks for the size needed; a workspace
that is too small is rejected. -/
theorem C42_addto_reject [Mul α] [Add α] [One α] (C : Sp α) (alpha : α) (A : Sp α) (beta : α) (B : Sp α) (ta tb : Bool) (W : WBuf) (junk : Junk α) :
    (A.kind ≠ B.kind → spAddTo (some C) alpha A beta B ta tb W junk = .ok (-3, some C, W)) ∧
    (A.kind = B.kind → (A.rows ≠ B.rows ∨ A.cols ≠ B.cols) → spAddTo (some C) alpha A beta B ta tb W junk = .ok (-1, some C, W)) ∧
    (A.kind = B.kind → A.rows = B.rows → A.cols = B.cols → W.bytes = 0 →
      spAddTo (some C) alpha A beta B ta tb W junk = .ok (0, some C, { W with bytes := accNeed C })) ∧
    (A.kind = B.kind → A.rows = B.rows → A.cols = B.cols → W.bytes ≠ 0 → wbytes W < accNeed C →
      spAddTo (some C) alpha A beta B ta tb W junk = .ok (-5, some C, W)) := by
  unfold spAddTo
  refine ⟨fun h => ?_, fun h h' => ?_, fun h h1 h2 h3 => ?_, fun h h1 h2 h3 h4 => ?_⟩
  · rw [if_pos h]; rfl
  · rw [if_neg (not_not.mpr h), if_pos h']; rfl
  · rw [if_neg (not_not.mpr h), if_neg (by omega)]; dsimp only; rw [if_pos h3]; rfl
  · rw [if_neg (not_not.mpr h), if_neg (by omega)]; dsimp only; rw [if_neg h3, if_pos h4]; rfl

/-- `armassp_add` never returns a sum: for operands of the same format and size it dereferences a null pointer. -/
theorem C42_add_false [Mul α] [Add α] [Zero α] [One α] (alpha : α) (A : Sp α) (beta : α) (B : Sp α) (ta tb : Bool) (junk : Junk α)
    (hk : A.kind = B.kind) (hr : A.rows = B.rows) (hc : A.cols = B.cols) : spAdd alpha A beta B ta tb junk = .ub := by
  unfold spAdd spAddTo
  rw [if_neg (not_not.mpr hk), if_neg (by omega)]
  rfl

/-- A transposed `A` in compressed column format: the result matrix is not written, the return code is 0. -/
theorem C42_addto_csc_tn_false [Mul α] [Add α] [One α] (C : Sp α) (alpha : α) (A : Sp α) (beta : α) (B : Sp α) (W : WBuf) (junk : Junk α)
    (hk : A.kind = .csc) (hk' : B.kind = .csc) (hr : A.rows = B.rows) (hc : A.cols = B.cols) (hW : W.bytes ≠ 0) (hW' : accNeed C ≤ wbytes W) :
    spAddTo (some C) alpha A beta B true false W junk = .ok (0, some C, W) := by
  unfold spAddTo
  rw [if_neg (by rw [hk, hk']; simp), if_neg (by omega)]
  dsimp only
  rw [if_neg hW, if_neg (by omega)]
  obtain ⟨acc, hacc⟩ := make_ok (n := accDim C) junk hW'
  rw [hacc]
  dsimp only
  unfold addSwitch
  rw [if_neg (by simp), if_pos (by simp), if_pos hk]
  show Res.ok _ = _
  rw [wset_self]

/-! ## Product -/

/-- Row and column of an entry of the transposed matrix if `t`. -/
def opRow (t : Bool) (e : Ent α) : Nat := if t then e.2.1 else e.1
def opCol (t : Bool) (e : Ent α) : Nat := if t then e.1 else e.2.1

/-- The positions of the product to which some pair of entries contributes. -/
def prodPos (ta tb : Bool) (NA : Nat) (ea : Nat → Ent α) (NB : Nat) (eb : Nat → Ent α) : Finset (Nat × Nat) :=
  ((range NA ×ˢ range NB).filter (fun x => opCol ta (ea x.1) = opRow tb (eb x.2))).image (fun x => (opRow ta (ea x.1), opCol tb (eb x.2)))

private theorem mem_prodPos {ta tb : Bool} {NA NB : Nat} {ea eb : Nat → Ent α} {p q i j : Nat} (hp : p < NA) (hq : q < NB)
    (h : opCol ta (ea p) = opRow tb (eb q)) (hi : opRow ta (ea p) = i) (hj : opCol tb (eb q) = j) : (i, j) ∈ prodPos ta tb NA ea NB eb := by
  refine mem_image.mpr ⟨(p, q), mem_filter.mpr ⟨mem_product.mpr ⟨mem_range.mpr hp, mem_range.mpr hq⟩, h⟩, ?_⟩
  dsimp only
  rw [hi, hj]

/-- The tests of `armassp_multto_w` before the product: sizes, space in the result by the estimate of the code, workspace. -/
structure MultPre (C A B : Sp α) (ta tb : Bool) (W : WBuf) (early : Bool) : Prop where
  ok : multOk C A B ta tb
  cols : C.cols ≠ 0
  work : W.bytes ≠ 0
  bytes : spBytes C.rows C.cols (A.nnz * B.nnz / C.cols) C.kind ≤ C.nbytes
  need : accNeed C ≤ wbytes W
  late : early = false → accNeed C ≤ wbytes (wreserveBytes W (accNeed C)).2

private theorem multTo_frame [CommRing α] {A B C : Sp α} {W : WBuf} {early : Bool} {junk : Junk α} {alpha : α} {ta tb : Bool}
    (hP : MultPre C A B ta tb W early) {D : Nat → Nat → α}
    (h : ∀ acc len, accMake (accDim C) len junk = some acc → Runs (multSwitch C alpha A B ta tb acc) (fun C' => ResultIs C C' D)) :
    Runs (spMultTo C alpha A B ta tb W early junk) (fun r => r.1 = 0 ∧ ResultIs C r.2.1 D) := by
  unfold spMultTo
  rw [if_neg (not_not.mpr hP.ok), if_neg hP.work, if_neg hP.cols, if_neg (not_lt.mpr hP.bytes), if_neg (not_lt.mpr hP.need)]
  have : accBytes (accDim C) ≤ (if early then wbytes W else wbytes (wreserveBytes W (accNeed C)).2) := by
    cases early with
    | true => exact hP.need
    | false => exact hP.late rfl
  obtain ⟨acc, hacc⟩ := make_ok (n := accDim C) junk this
  rw [hacc]
  dsimp only
  exact Runs.bind (h acc _ hacc) fun C' hC' => Runs.pure ⟨rfl, hC'⟩

/-- C42 for `armassp_multto_w` without transposed operands.  In compressed row format `alpha` is ignored (`C42_mult_alpha_false`), the claim holds
for `alpha = 1`. -/
theorem C42_multto_nn_partial [CommRing α] {A B C : Sp α} {m k n NA NB : Nat} {ea eb : Nat → Ent α} (hA : CMat A m k NA ea) (hB : CMat B k n NB eb)
    (hAB : A.kind = B.kind) (hCA : C.kind = A.kind) (hS : Space C (spMajor C.kind m n)) (hsize : (prodPos false false NA ea NB eb).card < C.size)
    (alpha : α) (halpha : A.kind = .csr → alpha = 1) {W : WBuf} {early : Bool} (junk : Junk α) (hP : MultPre C A B false false W early) :
    Runs (spMultTo C alpha A B false false W early junk) (fun r => r.1 = 0 ∧
      ResultIs C r.2.1 (fun i j => alpha * ∑ l ∈ range k, dense NA ea i l * dense NB eb l j)) := by
  refine multTo_frame hP fun acc len hacc => ?_
  obtain ⟨-, hCr, hCc⟩ := hP.ok
  simp only [Bool.false_eq_true, if_false, hA.rows, hB.cols] at hCr hCc
  unfold multSwitch
  dsimp only
  cases hk : A.kind with
  | coo => exact absurd hk hA.kind
  | csr =>
    have hCk : C.kind = .csr := by rw [hCA, hk]
    have hBk : B.kind = .csr := by rw [← hAB, hk]
    rw [if_neg (by rw [hCk]; simp)]
    simp only [hCk, spMajor] at hS
    unfold accDim at hacc
    rw [if_pos hCk] at hacc
    unfold multCsrNN
    rw [hA.rows]
    refine (accRows_spec (n := C.cols) (F := prodPos false false NA ea NB eb) hS hsize hacc 1
      (t := fun i j => ∑ l ∈ range k, dense NA ea i l * dense NB eb l j) ?_).mono fun C' h => res_csr hCk (by
        rw [hCr]; simpa [halpha hk] using h)
    intro i acc hi h
    rw [hCc] at h ⊢
    refine (mulRow_spec (hA.csr hk) (hB.csr hBk) hi h (fun p q hp hq e1 e2 => mem_prodPos hp hq e2 e1 rfl)).mono fun a ha => ha.congr fun c _ => by
      rw [zero_add]
  | csc =>
    have hCk : C.kind = .csc := by rw [hCA, hk]
    have hBk : B.kind = .csc := by rw [← hAB, hk]
    rw [if_pos hCk]
    simp only [hCk, spMajor] at hS
    unfold accDim at hacc
    rw [if_neg (by rw [hCk]; simp)] at hacc
    unfold multCscNN
    rw [hB.cols]
    refine (accRows_spec (n := C.rows) (F := (prodPos false false NA ea NB eb).image Prod.swap) hS (swap_card hsize) hacc alpha
      (t := fun i j => ∑ l ∈ range k, dense NA ea j l * dense NB eb l i) ?_).mono fun C' h => res_csc hCk (by rw [hCc]; simpa using h)
    intro i acc hi h
    rw [hCr] at h ⊢
    refine (mulRow_spec (hB.csc hBk) (hA.csc hk) hi h (fun p q hp hq e1 e2 => mem_swap (mem_prodPos hq hp e2.symm rfl e1))).mono fun a ha =>
      ha.congr fun c _ => ?_
    rw [zero_add]
    refine sum_congr rfl fun l _ => ?_
    rw [dflip, dflip, mul_comm]

/-- C42 with `B` transposed.  Compressed rows: the indices of both operands ascend strictly.  Compressed columns: the loop runs over the columns
of `B` instead of its rows, so `B` must be square (`C42_mult_rect_false`), and its last element must be stored. -/
theorem C42_multto_nt_partial [CommRing α] {A B C : Sp α} {m k n NA NB : Nat} {ea eb : Nat → Ent α} (hA : CMat A m k NA ea) (hB : CMat B n k NB eb)
    (hAB : A.kind = B.kind) (hCA : C.kind = A.kind) (hS : Space C (spMajor C.kind m n)) (hsize : (prodPos false true NA ea NB eb).card < C.size)
    (hsA : A.kind = .csr → StrictlyAscending .csr NA ea) (hsB : StrictlyAscending B.kind NB eb)
    (hsq : A.kind = .csc → n = k ∧ LastStored n k NB eb)
    (alpha : α) {W : WBuf} {early : Bool} (junk : Junk α) (hP : MultPre C A B false true W early) :
    Runs (spMultTo C alpha A B false true W early junk) (fun r => r.1 = 0 ∧
      ResultIs C r.2.1 (fun i j => alpha * ∑ l ∈ range k, dense NA ea i l * dense NB eb j l)) := by
  refine multTo_frame hP fun acc len hacc => ?_
  obtain ⟨-, hCr, hCc⟩ := hP.ok
  simp only [Bool.false_eq_true, if_false, if_true, hA.rows, hB.rows] at hCr hCc
  unfold multSwitch
  dsimp only
  cases hk : A.kind with
  | coo => exact absurd hk hA.kind
  | csr =>
    have hCk : C.kind = .csr := by rw [hCA, hk]
    have hBk : B.kind = .csr := by rw [← hAB, hk]
    rw [hBk] at hsB
    rw [if_neg (by rw [hCk]; simp)]
    simp only [hCk, spMajor] at hS
    unfold accDim at hacc
    rw [if_pos hCk] at hacc
    unfold multCsrNT
    rw [hA.rows, hB.rows]
    refine (accRows_spec (n := C.cols) (F := prodPos false true NA ea NB eb) hS hsize hacc alpha
      (t := fun i j => ∑ l ∈ range k, dense NA ea i l * dense NB eb j l) ?_).mono fun C' h => res_csr hCk (by rw [hCr]; simpa using h)
    intro i acc hi h
    rw [hCc] at h ⊢
    refine Runs.bind (accLoop (g := fun j c => if c = j then ∑ l ∈ range k, dense NA ea i l * dense NB eb j l else 0) (Nat.zero_le _) h ?_) fun r hr =>
      Runs.pure (hr.congr fun c hc => ?_)
    · intro j acc s _ hj h3
      exact accDot_spec (hA.csr hk) (hB.csr hBk) (strict_csr (hsA hk)) (strict_csr hsB) hi hj h3 hj
        (fun p q hp hq e1 e2 e3 => mem_prodPos hp hq e3 e1 e2)
    · rw [Nat.Ico_zero_eq_range, sum_ite_eq (range n) c, if_pos (mem_range.mpr hc), zero_add]
  | csc =>
    have hCk : C.kind = .csc := by rw [hCA, hk]
    have hBk : B.kind = .csc := by rw [← hAB, hk]
    obtain ⟨rfl, hlast⟩ := hsq hk
    rw [hBk] at hsB
    rw [if_pos hCk]
    simp only [hCk, spMajor] at hS
    unfold accDim at hacc
    rw [if_neg (by rw [hCk]; simp)] at hacc
    unfold multCscNT
    rw [hB.cols, hCc]
    refine (accRows_spec (n := C.rows) (F := (prodPos false true NA ea NB eb).image Prod.swap) hS (swap_card hsize) hacc alpha
      (t := fun i j => ∑ l ∈ range n, dense NA ea j l * dense NB eb i l) ?_).mono fun C' h => res_csc hCk (by rw [hCc]; simpa using h)
    intro i acc hi h
    rw [hCr] at h ⊢
    refine (mulNz_spec (hB.csc hBk) hB.is.1 (strict_csc hsB) (corner_flip hlast) (hA.csc hk) hi h
      (fun p q hp hq e1 e2 => mem_swap (mem_prodPos hq hp e2.symm rfl e1))).mono fun a ha => ha.congr fun c _ => ?_
    rw [zero_add]
    refine sum_congr rfl fun l _ => ?_
    rw [dflip, dflip, mul_comm]

/-- C42 with `A` transposed.  Compressed columns: the indices of both operands ascend strictly.  Compressed rows: the loop runs over the rows of `A`
instead of its columns, so `A` must be square (`C42_mult_rect_false`), and its last element must be stored. -/
theorem C42_multto_tn_partial [CommRing α] {A B C : Sp α} {m k n NA NB : Nat} {ea eb : Nat → Ent α} (hA : CMat A k m NA ea) (hB : CMat B k n NB eb)
    (hAB : A.kind = B.kind) (hCA : C.kind = A.kind) (hS : Space C (spMajor C.kind m n)) (hsize : (prodPos true false NA ea NB eb).card < C.size)
    (hsA : StrictlyAscending A.kind NA ea) (hsB : A.kind = .csc → StrictlyAscending .csc NB eb)
    (hsq : A.kind = .csr → m = k ∧ LastStored k m NA ea)
    (alpha : α) {W : WBuf} {early : Bool} (junk : Junk α) (hP : MultPre C A B true false W early) :
    Runs (spMultTo C alpha A B true false W early junk) (fun r => r.1 = 0 ∧
      ResultIs C r.2.1 (fun i j => alpha * ∑ l ∈ range k, dense NA ea l i * dense NB eb l j)) := by
  refine multTo_frame hP fun acc len hacc => ?_
  obtain ⟨-, hCr, hCc⟩ := hP.ok
  simp only [Bool.false_eq_true, if_false, if_true, hA.cols, hB.cols] at hCr hCc
  unfold multSwitch
  dsimp only
  cases hk : A.kind with
  | coo => exact absurd hk hA.kind
  | csr =>
    have hCk : C.kind = .csr := by rw [hCA, hk]
    have hBk : B.kind = .csr := by rw [← hAB, hk]
    obtain ⟨rfl, hlast⟩ := hsq hk
    rw [hk] at hsA
    rw [if_neg (by rw [hCk]; simp)]
    simp only [hCk, spMajor] at hS
    unfold accDim at hacc
    rw [if_pos hCk] at hacc
    unfold multCsrTN
    rw [hA.rows]
    refine (accRows_spec (n := C.cols) (F := prodPos true false NA ea NB eb) hS hsize hacc alpha
      (t := fun i j => ∑ l ∈ range m, dense NA ea l i * dense NB eb l j) ?_).mono fun C' h => res_csr hCk (by rw [hCr]; simpa using h)
    intro i acc hi h
    rw [hCc] at h ⊢
    refine (mulNz_spec (hA.csr hk) hA.is.1 (strict_csr hsA) hlast (hB.csr hBk) hi h
      (fun p q hp hq e1 e2 => mem_prodPos hp hq e2 e1 rfl)).mono fun a ha => ha.congr fun c _ => ?_
    rw [zero_add]
  | csc =>
    have hCk : C.kind = .csc := by rw [hCA, hk]
    have hBk : B.kind = .csc := by rw [← hAB, hk]
    rw [hk] at hsA
    rw [if_pos hCk]
    simp only [hCk, spMajor] at hS
    unfold accDim at hacc
    rw [if_neg (by rw [hCk]; simp)] at hacc
    unfold multCscTN
    rw [hB.cols, hA.cols]
    refine (accRows_spec (n := C.rows) (F := (prodPos true false NA ea NB eb).image Prod.swap) hS (swap_card hsize) hacc alpha
      (t := fun i j => ∑ l ∈ range k, dense NA ea l j * dense NB eb l i) ?_).mono fun C' h => res_csc hCk (by rw [hCc]; simpa using h)
    intro i acc hi h
    rw [hCr] at h ⊢
    refine Runs.bind (accLoop (g := fun j c => if c = j then ∑ l ∈ range k, dense NA ea l j * dense NB eb l i else 0) (Nat.zero_le _) h ?_) fun r hr =>
      Runs.pure (hr.congr fun c hc => ?_)
    · intro j acc s _ hj h3
      refine (accDot_spec (hA.csc hk) (hB.csc hBk) (strict_csc hsA) (strict_csc (hsB hk)) hj hi h3 hj
        (fun p q hp hq e1 e2 e3 => mem_swap (mem_prodPos hp hq e3 e1 e2))).mono fun a ha => ha.congr fun c _ => ?_
      simp only [dflip]
    · rw [Nat.Ico_zero_eq_range, sum_ite_eq (range m) c, if_pos (mem_range.mpr hc), zero_add]

/-- C42 with both operands transposed, for a square result whose operands have the sizes the loops assume (`A` square in compressed row format), and
with the last element of the searched operand stored. -/
theorem C42_multto_tt_partial [CommRing α] {A B C : Sp α} {m k n NA NB : Nat} {ea eb : Nat → Ent α} (hA : CMat A k m NA ea) (hB : CMat B n k NB eb)
    (hAB : A.kind = B.kind) (hCA : C.kind = A.kind) (hS : Space C (spMajor C.kind m n)) (hsize : (prodPos true true NA ea NB eb).card < C.size)
    (hcsr : A.kind = .csr → m = k ∧ StrictlyAscending .csr NA ea ∧ LastStored k m NA ea)
    (hcsc : A.kind = .csc → m = n ∧ StrictlyAscending .csc NB eb ∧ LastStored n k NB eb)
    (alpha : α) {W : WBuf} {early : Bool} (junk : Junk α) (hP : MultPre C A B true true W early) :
    Runs (spMultTo C alpha A B true true W early junk) (fun r => r.1 = 0 ∧
      ResultIs C r.2.1 (fun i j => alpha * ∑ l ∈ range k, dense NA ea l i * dense NB eb j l)) := by
  refine multTo_frame hP fun acc len hacc => ?_
  obtain ⟨-, hCr, hCc⟩ := hP.ok
  simp only [if_true, hA.cols, hB.rows] at hCr hCc
  unfold multSwitch
  dsimp only
  cases hk : A.kind with
  | coo => exact absurd hk hA.kind
  | csr =>
    have hCk : C.kind = .csr := by rw [hCA, hk]
    have hBk : B.kind = .csr := by rw [← hAB, hk]
    obtain ⟨rfl, hsA, hlast⟩ := hcsr hk
    rw [if_neg (by rw [hCk]; simp)]
    simp only [hCk, spMajor] at hS
    unfold accDim at hacc
    rw [if_pos hCk] at hacc
    unfold multCsrTT
    rw [hA.rows, hCr]
    refine (accRows_spec (n := C.cols) (F := prodPos true true NA ea NB eb) hS hsize hacc alpha
      (t := fun i j => ∑ l ∈ range m, dense NA ea l i * dense NB eb j l) ?_).mono fun C' h => res_csr hCk (by rw [hCr]; simpa using h)
    intro i acc hi h
    rw [hCc] at h ⊢
    refine (mulTT_spec (hB.csr hBk) (hA.csr hk) hA.is.1 (strict_csr hsA) hlast hi (le_refl _) h
      (fun p q hp hq e1 e2 => mem_prodPos hq hp e2.symm e1 rfl)).mono fun a ha => ha.congr fun c hc => ?_
    rw [zero_add, if_pos hc]
  | csc =>
    have hCk : C.kind = .csc := by rw [hCA, hk]
    have hBk : B.kind = .csc := by rw [← hAB, hk]
    obtain ⟨rfl, hsB, hlast⟩ := hcsc hk
    rw [if_pos hCk]
    simp only [hCk, spMajor] at hS
    unfold accDim at hacc
    rw [if_neg (by rw [hCk]; simp)] at hacc
    unfold multCscTT
    rw [hCr, hCc]
    rw [hCr] at hacc
    refine (accRows_spec (n := m) (F := (prodPos true true NA ea NB eb).image Prod.swap) hS (swap_card hsize) hacc alpha
      (t := fun i j => ∑ l ∈ range k, dense NA ea l j * dense NB eb i l) ?_).mono fun C' h => res_csc hCk (by rw [hCc, hCr]; simpa using h)
    intro i acc hi h
    refine (mulTT_spec (hA.csc hk) (hB.csc hBk) hB.is.1 (strict_csc hsB) (corner_flip hlast) hi (le_refl _) h
      (fun p q hp hq e1 e2 => mem_swap (mem_prodPos hp hq e2 rfl e1))).mono fun a ha => ha.congr fun c hc => ?_
    rw [zero_add, if_pos hc]
    refine sum_congr rfl fun l _ => ?_
    rw [dflip, dflip, mul_comm]

/-- `armassp_mult` computes nothing: the matrix it returns has no elements, whatever the operands. -/
theorem C42_mult_false [Zero α] (A B : Sp α) (hk : A.kind = B.kind) (hk' : A.kind ≠ .coo) (hc : A.cols ≠ 0) :
    ∃ C, spMult A B = .ok (some C) ∧ C.nnz = 0 := by
  unfold spMult
  rw [if_neg (by rintro (h | h); exacts [h hk, hk' h]), if_neg hc]
  refine ⟨_, rfl, ?_⟩
  unfold spNew
  split
  · rfl
  · unfold spMake
    cases A.kind <;> rfl

/-- With the workspace size that the function itself asks for, and the reservation evaluated before the size, the accumulator is not initialized. -/
theorem C42_mult_order_false [Mul α] [Add α] [Zero α] [One α] (C : Sp α) (alpha : α) (A B : Sp α) (ta tb : Bool) (junk : Junk α)
    (hok : multOk C A B ta tb) (hc : C.cols ≠ 0) (hb : spBytes C.rows C.cols (A.nnz * B.nnz / C.cols) C.kind ≤ C.nbytes)
    (hpos : accNeed C ≠ 0) (hlt : accNeed C < SIZE_T) : spMultTo C alpha A B ta tb (walloc (accNeed C)) false junk = .ub := by
  have h1 : wbytes (walloc (accNeed C)) = accNeed C := by
    unfold wbytes walloc szSub
    simp [Nat.mod_eq_of_lt hlt]
  have h2 : wbytes (wreserveBytes (walloc (accNeed C)) (accNeed C)).2 = 0 := by
    unfold wreserveBytes
    rw [if_neg (by have := h1; unfold wbytes at this; omega)]
    unfold wbytes walloc szSub
    simp [Nat.mod_eq_of_lt hlt]
  unfold spMultTo
  rw [if_neg (not_not.mpr hok), if_neg (show (walloc (accNeed C)).bytes ≠ 0 from hpos), if_neg hc, if_neg (not_lt.mpr hb), if_neg (by rw [h1]; omega)]
  simp only [Bool.false_eq_true, if_false]
  rw [h2]
  unfold accMake
  rw [if_pos (by unfold accNeed at hpos; omega)]

/-! ## Examples -/

def demoTarget : Sp ℚ :=
  ⟨.csr, 3, 3, 0, 3, 20, 1000, 20, 4, fun k => if k < 20 then some 0 else none, fun k => if k < 4 then some 0 else none,
    fun k => if k < 20 then some 0 else none, noMem⟩

def demoJunk : Junk ℚ := ⟨fun p => p, fun _ => 7, fun p => p⟩

private theorem demo_cmat : CMat demoTri 3 3 7 demoTriEnt := ⟨(demoTri_is false).is, by decide, rfl, rfl⟩

private theorem demo_strict : StrictlyAscending .csr 7 demoTriEnt := (demoTri_is false).asc

private theorem demo_last : LastStored 3 3 7 demoTriEnt := ⟨6, by decide, rfl, rfl⟩

private theorem demo_space : Space demoTarget 3 := by
  refine ⟨fun k hk => ⟨0, if_pos (by omega)⟩, fun p hp => ⟨0, if_pos hp⟩, fun p hp => ⟨0, if_pos hp⟩⟩

private theorem walloc_bytes {n : Nat} (h : n < 2 ^ 32) : wbytes (walloc n) = n := by
  have : n < SIZE_T := by rw [SIZE_T_def]; omega
  unfold wbytes walloc szSub
  simp [Nat.mod_eq_of_lt this]

private theorem demo_pre (ta tb early : Bool) : MultPre demoTarget demoTri demoTri ta tb (walloc 200) early := by
  refine ⟨by cases ta <;> cases tb <;> decide, by decide, by decide, by decide, ?_, fun _ => ?_⟩
  · rw [walloc_bytes (by decide)]
    decide
  · unfold wreserveBytes
    have h : szSub (walloc 200).bytes (walloc 200).offset = 200 := walloc_bytes (by decide)
    rw [h, if_neg (by decide)]
    unfold wbytes walloc szSub
    rw [SIZE_T_def]
    decide

example := C42_addto_partial demo_cmat demo_cmat rfl (C := demoTarget) rfl rfl rfl demo_space (by decide) 2 3 demoJunk (W := walloc 200) (by decide)
  (by rw [walloc_bytes (by decide)]; decide)
example := C42_addto_nt_partial demo_cmat demo_cmat rfl (C := demoTarget) rfl rfl rfl demo_space demo_strict demo_last (by decide) 2 3 demoJunk
  (W := walloc 200) (by decide) (by rw [walloc_bytes (by decide)]; decide)
example := C42_addto_tn_partial demo_cmat demo_cmat rfl rfl (C := demoTarget) rfl rfl rfl demo_space demo_strict demo_last (by decide) 2 3 demoJunk
  (W := walloc 200) (by decide) (by rw [walloc_bytes (by decide)]; decide)
example := C42_addto_reject demoTarget (2 : ℚ) demoTri 3 demoTri false false (walloc 0) demoJunk
example := C42_add_false (2 : ℚ) demoTri 3 demoTri false false demoJunk rfl rfl rfl
example := C42_addto_csc_tn_false demoTarget (2 : ℚ) { demoTri with kind := .csc } 3 { demoTri with kind := .csc } (walloc 200) demoJunk rfl rfl rfl rfl
  (by decide) (by rw [walloc_bytes (by decide)]; decide)
example := C42_multto_nn_partial demo_cmat demo_cmat rfl (C := demoTarget) rfl demo_space (by decide) 1 (fun _ => rfl) demoJunk (demo_pre false false true)
example := C42_multto_nt_partial demo_cmat demo_cmat rfl (C := demoTarget) rfl demo_space (by decide) (fun _ => demo_strict) demo_strict
  (fun h => by cases h) 2 demoJunk (demo_pre false true false)
example := C42_multto_tn_partial demo_cmat demo_cmat rfl (C := demoTarget) rfl demo_space (by decide) demo_strict (fun h => by cases h)
  (fun _ => ⟨rfl, demo_last⟩) 2 demoJunk (demo_pre true false false)
example := C42_multto_tt_partial demo_cmat demo_cmat rfl (C := demoTarget) rfl demo_space (by decide) (fun _ => ⟨rfl, demo_strict, demo_last⟩)
  (fun h => by cases h) 2 demoJunk (demo_pre true true true)
example := C42_mult_false demoTri demoTri rfl (by decide) (by decide)
example := C42_mult_order_false demoTarget (2 : ℚ) demoTri demoTri false false demoJunk (by decide) (by decide) (by decide) (by decide)
  (by rw [SIZE_T_def]; decide)

/-! ## Where the claim fails -/

/-- What remains of `armassp_addto_w` and `armassp_multto_w` after the tests. -/
private theorem addTo_eq [Mul α] [Add α] [One α] {A B C : Sp α} {n : Nat} {junk : Junk α} {alpha beta : α} {ta tb : Bool} (hk : A.kind = B.kind)
    (hr : A.rows = B.rows) (hc : A.cols = B.cols) (hn : n ≠ 0) (hn' : n < 2 ^ 32) (hW' : accNeed C ≤ n) :
    spAddTo (some C) alpha A beta B ta tb (walloc n) junk =
      (match accMake (accDim C) n junk with
      | none => .ub
      | some acc => addSwitch C alpha A beta B ta tb acc >>= fun C' => pure (0, some C', walloc n)) := by
  have h := walloc_bytes hn'
  unfold spAddTo
  rw [if_neg (not_not.mpr hk), if_neg (by omega)]
  dsimp only
  rw [if_neg (show (walloc n).bytes ≠ 0 from hn), if_neg (by omega), h, wset_self]
  rfl

/-- The 1 × 1 matrix (`x`) with room for `size` elements. -/
private def one1 (x : ℚ) (size : Nat) : Sp ℚ :=
  ⟨.csr, 1, 1, 1, 1, size, 1000, size, 2, fun k => if k < size then some x else none, fun k => [0, 1][k]?, fun k => if k < size then some 0 else none, noMem⟩

/-- The 2 × 2 matrix (1 x; 0 1). -/
private def two2 (x : ℚ) : Sp ℚ :=
  ⟨.csr, 2, 2, 3, 2, 3, 1000, 3, 3, fun k => [1, x, 1][k]?, fun k => [0, 2, 3][k]?, fun k => [0, 1, 1][k]?, noMem⟩

/-- The 2 × 2 matrix (1 0; 0 0) with one stored element. -/
private def two0 : Sp ℚ := ⟨.csr, 2, 2, 1, 2, 1, 1000, 1, 3, fun k => [1][k]?, fun k => [0, 1, 1][k]?, fun k => [0][k]?, noMem⟩

/-- Zeroed 2 × 2 matrix with room for 8 elements. -/
private def room2 : Sp ℚ :=
  ⟨.csr, 2, 2, 0, 2, 8, 1000, 8, 3, fun k => if k < 8 then some 0 else none, fun k => if k < 3 then some 0 else none,
    fun k => if k < 8 then some 0 else none, noMem⟩

/-- The row pointers, column indices and values of the result of the sum. -/
private def rowsOf (r : Res (Int × Option (Sp ℚ) × WBuf)) (m : Nat) : Option (List (Option Nat) × List (Option Nat) × List (Option ℚ)) :=
  match r with
  | .ok (_, some C, _) => some ((List.range (m + 1)).map C.ptr, (List.range C.nnz).map C.ix, (List.range C.nnz).map C.v)
  | _ => none

/-- The same for the product. -/
private def rowsOf' (r : Res (Int × Sp ℚ × WBuf)) (m : Nat) : Option (List (Option Nat) × List (Option Nat) × List (Option ℚ)) :=
  match r with
  | .ok (_, C, _) => some ((List.range (m + 1)).map C.ptr, (List.range C.nnz).map C.ix, (List.range C.nnz).map C.v)
  | _ => none

/-- A result matrix with room for exactly the elements of the sum fails the assertion in `armas_accum_gather`: (1) + (1) into a matrix of one element. -/
theorem C42_fit_false : isUB (spAddTo (some (one1 0 1)) 1 (one1 1 1) 1 (one1 1 1) false false (walloc 100) demoJunk) = true := by
  rw [addTo_eq rfl rfl rfl (by decide) (by decide) (by decide)]
  decide +kernel

/-- A transposed operand whose last element is not stored: `armassp_nz` reads behind the index array.  (1 0; 0 0) + (1 0; 0 0)ᵀ. -/
theorem C42_search_false : isUB (spAddTo (some room2) 1 two0 1 two0 false true (walloc 100) demoJunk) = true := by
  rw [addTo_eq rfl rfl rfl (by decide) (by decide) (by decide)]
  decide +kernel

/-- Transposed `A` in compressed row format is scaled with `beta`: 1*(1)ᵀ + 2*(1) gives (4). -/
theorem C42_addto_tn_false :
    rowsOf (spAddTo (some (one1 0 2)) 1 (one1 1 1) 2 (one1 1 1) true false (walloc 100) demoJunk) 1 =
      some ([some 0, some 1], [some 0], [some 4]) := by
  rw [addTo_eq rfl rfl rfl (by decide) (by decide) (by decide)]
  decide +kernel

/-- Both operands transposed gives the sum without transposing: for `A` = `B` = (1 5; 0 1) row 0 of the result holds 2, 10, row 1 holds 2 in column 1. -/
theorem C42_addto_tt_false :
    rowsOf (spAddTo (some room2) 1 (two2 5) 1 (two2 5) true true (walloc 100) demoJunk) 2 =
      some ([some 0, some 2, some 3], [some 0, some 1, some 1], [some 2, some 10, some 2]) := by
  rw [addTo_eq rfl rfl rfl (by decide) (by decide) (by decide)]
  decide +kernel

private theorem multTo_eq [Mul α] [Add α] [Zero α] [One α] {A B C : Sp α} {n : Nat} {junk : Junk α} {alpha : α} {ta tb : Bool} (hok : multOk C A B ta tb)
    (hc : C.cols ≠ 0) (hb : spBytes C.rows C.cols (A.nnz * B.nnz / C.cols) C.kind ≤ C.nbytes) (hn : n ≠ 0) (hn' : n < 2 ^ 32) (hW' : accNeed C ≤ n) :
    spMultTo C alpha A B ta tb (walloc n) true junk =
      (match accMake (accDim C) n junk with
      | none => .ub
      | some acc => multSwitch C alpha A B ta tb acc >>= fun C' => pure (0, C', (wreserveBytes (walloc n) (accNeed C)).2)) := by
  have h := walloc_bytes hn'
  unfold spMultTo
  rw [if_neg (not_not.mpr hok), if_neg (show (walloc n).bytes ≠ 0 from hn), if_neg hc, if_neg (not_lt.mpr hb), if_neg (by rw [h]; omega)]
  simp only [if_true]
  rw [h]
  rfl

/-- The product in compressed row format ignores `alpha`: 2*(1)*(1) gives (1). -/
theorem C42_mult_alpha_false :
    rowsOf' (spMultTo (one1 0 2) 2 (one1 1 1) (one1 1 1) false false (walloc 100) true demoJunk) 1 =
      some ([some 0, some 1], [some 0], [some 1]) := by
  rw [multTo_eq (by decide) (by decide) (by decide) (by decide) (by decide) (by decide)]
  decide +kernel

/-- `A`ᵀ`A` for the 1 × 2 matrix `A` = (1 1): only the first of the two rows of the result is computed, the pointer to its end is left as it was. -/
theorem C42_mult_rect_false :
    rowsOf' (spMultTo room2 1 ⟨.csr, 1, 2, 2, 1, 2, 1000, 2, 2, fun k => [1, 1][k]?, fun k => [0, 2][k]?, fun k => [0, 1][k]?, noMem⟩
      ⟨.csr, 1, 2, 2, 1, 2, 1000, 2, 2, fun k => [1, 1][k]?, fun k => [0, 2][k]?, fun k => [0, 1][k]?, noMem⟩ true false (walloc 100) true demoJunk) 2 =
      some ([some 0, some 2, some 0], [some 0, some 1], [some 1, some 1]) := by
  rw [multTo_eq (by decide) (by decide) (by decide) (by decide) (by decide) (by decide)]
  decide +kernel

end Armas.Props
