import Verif.Mem

/-!
# Reasoning about outcomes

`Runs r Q`: the program `r` ends normally (no undefined behaviour, no divergence) and its result
satisfies `Q`.  Below: rules for sequencing, memory access and loops, and the assertions `UpdV`,
`Upd` used as loop invariants ("the elements in `S` have their new value, the others the old one,
nothing else changed").
-/

namespace Armas

/-- `omega`, after beta/projection reduction if needed. -/
macro "bomega" : tactic => `(tactic| first | omega | (dsimp only; omega) | (dsimp only at *; omega))

open Classical

variable {α : Type}

/-- `r` terminates without undefined behaviour and its result satisfies `Q`. -/
def Runs {β : Type} (r : Res β) (Q : β → Prop) : Prop := ∃ b, r = .ok b ∧ Q b

namespace Runs

variable {β γ : Type}

theorem ok {b : β} {Q : β → Prop} (h : Q b) : Runs (.ok b) Q := ⟨b, rfl, h⟩

theorem pure {b : β} {Q : β → Prop} (h : Q b) : Runs (Pure.pure b) Q := ⟨b, rfl, h⟩

theorem mono {r : Res β} {P Q : β → Prop} (h : Runs r P) (hPQ : ∀ b, P b → Q b) : Runs r Q := by
  obtain ⟨b, e, hb⟩ := h
  exact ⟨b, e, hPQ b hb⟩

theorem bind {r : Res β} {f : β → Res γ} {P : β → Prop} {Q : γ → Prop} (h : Runs r P)
    (hf : ∀ b, P b → Runs (f b) Q) : Runs (r >>= f) Q := by
  obtain ⟨b, e, hb⟩ := h
  obtain ⟨c, e', hc⟩ := hf b hb
  exact ⟨c, by rw [e]; exact e', hc⟩

theorem rd {m : Mem α} {p : Nat} {v : α} {Q : α → Prop} (h : m p = some v) (hQ : Q v) :
    Runs (Armas.rd m p) Q := ⟨v, rd_ok h, hQ⟩

theorem rd_bind {m : Mem α} {p : Nat} {v : α} {f : α → Res β} {Q : β → Prop}
    (h : m p = some v) (k : Runs (f v) Q) : Runs (Armas.rd m p >>= f) Q := by
  rw [rd_ok h]; exact k

theorem wr {m : Mem α} {p : Nat} {v w : α} {Q : Mem α → Prop} (h : m p = some v)
    (hQ : Q (m.set p w)) : Runs (Armas.wr m p w) Q := ⟨_, wr_ok h, hQ⟩

theorem wr_bind {m : Mem α} {p : Nat} {v w : α} {f : Mem α → Res β} {Q : β → Prop}
    (h : m p = some v) (k : Runs (f (m.set p w)) Q) : Runs (Armas.wr m p w >>= f) Q := by
  rw [wr_ok h]; exact k

theorem forUp {σ : Type} (I : Nat → σ → Prop) {i n s : Nat} {body : Nat → σ → Res σ} {st : σ}
    {Q : Nat × σ → Prop} (hs : 0 < s) (h0 : I i st)
    (hstep : ∀ j st, i ≤ j → j < n → I j st → Runs (body j st) (I (j + s)))
    (hQ : ∀ k st, n ≤ k → i ≤ k → I k st → Q (k, st)) : Runs (Armas.forUp i n s body st) Q := by
  obtain ⟨k, st', e, hI, h1, h2⟩ := forUp_rule I hs h0 hstep
  exact ⟨_, e, hQ k st' h1 h2 hI⟩

theorem forUp1 {σ : Type} (I : Nat → σ → Prop) {i n : Nat} {body : Nat → σ → Res σ} {st : σ}
    {Q : Nat × σ → Prop} (hin : i ≤ n) (h0 : I i st)
    (hstep : ∀ j st, i ≤ j → j < n → I j st → Runs (body j st) (I (j + 1)))
    (hQ : ∀ st, I n st → Q (n, st)) : Runs (Armas.forUp i n 1 body st) Q := by
  obtain ⟨st', e, hI⟩ := forUp1_rule I hin h0 hstep
  exact ⟨_, e, hQ st' hI⟩

theorem forDown {σ : Type} (I : Nat → σ → Prop) {n : Nat} {body : Nat → σ → Res σ} {st : σ}
    {Q : σ → Prop} (h0 : I n st)
    (hstep : ∀ j st, j < n → I (j + 1) st → Runs (body j st) (I j))
    (hQ : ∀ st, I 0 st → Q st) : Runs (Armas.forDown n body st) Q := by
  obtain ⟨st', e, hI⟩ := forDown_rule I h0 hstep
  exact ⟨_, e, hQ st' hI⟩

theorem det {r : Res β} {P Q : β → Prop} (h : Runs r P) (h' : Runs r Q) :
    Runs r (fun b => P b ∧ Q b) := by
  obtain ⟨b, e, hb⟩ := h
  obtain ⟨c, e', hc⟩ := h'
  rw [e] at e'
  cases e'
  exact ⟨b, e, hb, hc⟩

theorem not_ub {r : Res β} {Q : β → Prop} (h : Runs r Q) : r ≠ .ub := by
  obtain ⟨b, e, _⟩ := h; rw [e]; simp

end Runs

/-- Tail of a loop unrolled by four as written all over `src/blas`:
`switch (r) { case 3: step; i++; case 2: step; i++; case 1: step; }` with fall-through and running
index. -/
def switchTail {σ : Type} (r i : Nat) (step : Nat → σ → Res σ) (st : σ) : Res σ :=
  match r with
  | 3 => do
    let st ← step i st
    let st ← step (i + 1) st
    step (i + 2) st
  | 2 => do
    let st ← step i st
    step (i + 1) st
  | 1 => step i st
  | _ => .ok st

theorem Runs.switchTail {σ : Type} (I : Nat → σ → Prop) {N i : Nat} {step : Nat → σ → Res σ} {st : σ}
    {Q : σ → Prop} (hi : i ≤ N) (hN : N - 3 ≤ i) (h0 : I i st)
    (hstep : ∀ j st, i ≤ j → j < N → I j st → Runs (step j st) (I (j + 1)))
    (hQ : ∀ st, I N st → Q st) : Runs (Armas.switchTail (N - i) i step st) Q := by
  have h4 : N - i = 0 ∨ N - i = 1 ∨ N - i = 2 ∨ N - i = 3 := by omega
  rcases h4 with h | h | h | h
  · rw [h]
    have : i = N := by omega
    subst this
    exact ⟨st, rfl, hQ _ h0⟩
  · rw [h]
    refine (hstep i st (le_refl _) (by omega) h0).mono (fun b hb => hQ b ?_)
    have : i + 1 = N := by omega
    rwa [this] at hb
  · rw [h]
    refine (hstep i st (le_refl _) (by omega) h0).bind (fun b hb => ?_)
    refine (hstep (i + 1) b (by omega) (by omega) hb).mono (fun b hb => hQ b ?_)
    have : i + 1 + 1 = N := by omega
    rwa [this] at hb
  · rw [h]
    refine (hstep i st (le_refl _) (by omega) h0).bind (fun b hb => ?_)
    refine (hstep (i + 1) b (by omega) (by omega) hb).bind (fun b hb => ?_)
    refine (hstep (i + 2) b (by omega) (by omega) hb).mono (fun b hb => hQ b ?_)
    have : i + 2 + 1 = N := by omega
    rwa [this] at hb

/-! ## Update invariants -/

/-- Vector `Y` held `f` in `m0`; in `m` its elements in `S` have the new value `g`, and nothing
else differs. -/
structure UpdV (m0 : Mem α) (Y : View) (f g : Nat → α) (S : Nat → Prop) (m : Mem α) : Prop where
  hold : ∀ k, k < Y.size → m (Y.vat k) = some (if S k then g k else f k)
  frame : Frame Y.foot m0 m

namespace UpdV

variable {m0 m : Mem α} {Y : View} {f g : Nat → α} {S : Nat → Prop}

theorem init (h : HoldsV m0 Y f) (g : Nat → α) : UpdV m0 Y f g (fun _ => False) m0 :=
  ⟨fun k hk => by simpa using h k hk, Frame.refl _ _⟩

theorem congr {S' : Nat → Prop} (h : UpdV m0 Y f g S m) (e : ∀ k, k < Y.size → (S k ↔ S' k)) :
    UpdV m0 Y f g S' m :=
  ⟨fun k hk => by rw [h.hold k hk]; simp only [e k hk], h.frame⟩

theorem init_lt (h : HoldsV m0 Y f) (g : Nat → α) : UpdV m0 Y f g (fun k => k < 0) m0 :=
  (init h g).congr (by simp)

theorem old (h : UpdV m0 Y f g S m) {k : Nat} (hk : k < Y.size) (hS : ¬ S k) :
    m (Y.vat k) = some (f k) := by rw [h.hold k hk, if_neg hS]

theorem new (h : UpdV m0 Y f g S m) {k : Nat} (hk : k < Y.size) (hS : S k) :
    m (Y.vat k) = some (g k) := by rw [h.hold k hk, if_pos hS]

theorem set (h : UpdV m0 Y f g S m) (hv : Y.isVec) (hw : Y.WF) {k : Nat} (hk : k < Y.size)
    {v : α} (hvk : v = g k) : UpdV m0 Y f g (fun l => S l ∨ l = k) (m.set (Y.vat k) v) := by
  refine ⟨fun l hl => ?_, h.frame.trans (Frame.set (View.vat_mem_foot hv hk) _)⟩
  by_cases e : l = k
  · subst e; simp [hvk]
  · rw [Mem.set_ne _ _ (fun e' => e (View.vat_inj hv hw hl hk e')), h.hold l hl]
    simp [e]

/-- Sequential pass: after element `k`, all elements below `k+1` are done. -/
theorem set_lt {k : Nat} (h : UpdV m0 Y f g (fun l => l < k) m) (hv : Y.isVec) (hw : Y.WF)
    (hk : k < Y.size) {v : α} (hvk : v = g k) :
    UpdV m0 Y f g (fun l => l < k + 1) (m.set (Y.vat k) v) :=
  (h.set hv hw hk hvk).congr (fun l _ => by omega)

theorem done {n : Nat} (h : UpdV m0 Y f g (fun l => l < n) m) (hn : Y.size ≤ n) :
    HoldsV m Y g := fun k hk => h.new hk (by omega)

theorem all (h : UpdV m0 Y f g S m) (hS : ∀ k, k < Y.size → S k) : HoldsV m Y g :=
  fun k hk => h.new hk (hS k hk)

/-- A view whose cells are disjoint from `Y` is unchanged. -/
theorem other (h : UpdV m0 Y f g S m) {X : View} {x : Nat → α} (hX : HoldsV m0 X x)
    (hv : X.isVec) (hd : Disjoint X.foot Y.foot) : HoldsV m X x := hX.frame hv h.frame hd

theorem otherM (h : UpdV m0 Y f g S m) {X : View} {x : Nat → Nat → α} (hX : Holds m0 X x)
    (hd : Disjoint X.foot Y.foot) : Holds m X x := hX.frame h.frame hd

end UpdV

/-- Matrix `V` held `f` in `m0`; in `m` its elements in `S` have the new value `g`, and nothing
else differs. -/
structure Upd (m0 : Mem α) (V : View) (f g : Nat → Nat → α) (S : Nat → Nat → Prop) (m : Mem α) :
    Prop where
  hold : ∀ i j, i < V.rows → j < V.cols → m (V.at' i j) = some (if S i j then g i j else f i j)
  frame : Frame V.foot m0 m

namespace Upd

variable {m0 m : Mem α} {V : View} {f g : Nat → Nat → α} {S : Nat → Nat → Prop}

theorem init (h : Holds m0 V f) (g : Nat → Nat → α) : Upd m0 V f g (fun _ _ => False) m0 :=
  ⟨fun i j hi hj => by simpa using h i j hi hj, Frame.refl _ _⟩

theorem congr {S' : Nat → Nat → Prop} (h : Upd m0 V f g S m)
    (e : ∀ i j, i < V.rows → j < V.cols → (S i j ↔ S' i j)) : Upd m0 V f g S' m :=
  ⟨fun i j hi hj => by rw [h.hold i j hi hj]; simp only [e i j hi hj], h.frame⟩

theorem old (h : Upd m0 V f g S m) {i j : Nat} (hi : i < V.rows) (hj : j < V.cols)
    (hS : ¬ S i j) : m (V.at' i j) = some (f i j) := by rw [h.hold i j hi hj, if_neg hS]

theorem new (h : Upd m0 V f g S m) {i j : Nat} (hi : i < V.rows) (hj : j < V.cols)
    (hS : S i j) : m (V.at' i j) = some (g i j) := by rw [h.hold i j hi hj, if_pos hS]

theorem set (h : Upd m0 V f g S m) (hw : V.WF) {i j : Nat} (hi : i < V.rows) (hj : j < V.cols)
    {v : α} (hv : v = g i j) :
    Upd m0 V f g (fun p q => S p q ∨ (p = i ∧ q = j)) (m.set (V.at' i j) v) := by
  refine ⟨fun p q hp hq => ?_, h.frame.trans (Frame.set (View.at_mem_foot hi hj) _)⟩
  by_cases e : p = i ∧ q = j
  · obtain ⟨rfl, rfl⟩ := e; simp [hv]
  · rw [Mem.set_ne _ _ (fun e' => e (View.at_inj hw hp hq hi hj e')), h.hold p q hp hq]
    simp [e]

theorem all (h : Upd m0 V f g S m) (hS : ∀ i j, i < V.rows → j < V.cols → S i j) : Holds m V g :=
  fun i j hi hj => h.new hi hj (hS i j hi hj)

theorem holds (h : Upd m0 V f g S m) : Holds m V (fun i j => if S i j then g i j else f i j) :=
  h.hold

theorem other (h : Upd m0 V f g S m) {X : View} {x : Nat → α} (hX : HoldsV m0 X x)
    (hv : X.isVec) (hd : Disjoint X.foot V.foot) : HoldsV m X x := hX.frame hv h.frame hd

theorem otherM (h : Upd m0 V f g S m) {X : View} {x : Nat → Nat → α} (hX : Holds m0 X x)
    (hd : Disjoint X.foot V.foot) : Holds m X x := hX.frame h.frame hd

/-- A block of `V` was updated by a subroutine: absorb it. -/
theorem block (h : Upd m0 V f g S m) (hw : V.WF) {m' : Mem α} {r c nr nc : Nat}
    (hr : r + nr ≤ V.rows) (hc : c + nc ≤ V.cols)
    (hb : Holds m' (V.sub r c nr nc) (fun i j => g (r + i) (c + j)))
    (hf : Frame (V.sub r c nr nc).foot m m') :
    Upd m0 V f g (fun i j => S i j ∨ (r ≤ i ∧ i < r + nr ∧ c ≤ j ∧ j < c + nc)) m' := by
  refine ⟨fun i j hi hj => ?_, h.frame.trans (hf.mono (View.sub_foot hr hc))⟩
  have := (h.holds).patch hw hr hc hb hf i j hi hj
  rw [this]
  by_cases hin : r ≤ i ∧ i < r + nr ∧ c ≤ j ∧ j < c + nc
  · simp only [hin, and_self, if_true, or_true]
    congr 2 <;> omega
  · simp only [hin, if_false, or_false]

/-- Starting point for a subroutine on an untouched block. -/
theorem block_old (h : Upd m0 V f g S m) {r c nr nc : Nat}
    (hr : r + nr ≤ V.rows) (hc : c + nc ≤ V.cols)
    (hS : ∀ i j, i < nr → j < nc → ¬ S (r + i) (c + j)) :
    Holds m (V.sub r c nr nc) (fun i j => f (r + i) (c + j)) := by
  intro i j hi hj
  simp only [View.sub_rows, View.sub_cols] at hi hj
  rw [View.at_sub]
  exact h.old (by omega) (by omega) (hS i j hi hj)

theorem block_new (h : Upd m0 V f g S m) {r c nr nc : Nat}
    (hr : r + nr ≤ V.rows) (hc : c + nc ≤ V.cols)
    (hS : ∀ i j, i < nr → j < nc → S (r + i) (c + j)) :
    Holds m (V.sub r c nr nc) (fun i j => g (r + i) (c + j)) := by
  intro i j hi hj
  simp only [View.sub_rows, View.sub_cols] at hi hj
  rw [View.at_sub]
  exact h.new (by omega) (by omega) (hS i j hi hj)

end Upd

end Armas
