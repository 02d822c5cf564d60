import Verif.Workspace
import Mathlib.Tactic.NormNum

/-!
# C04: workspace reservations

A history is a list of calls.  `live` is the specification of what the caller may use: every
successful reservation adds its byte range; `armas_wsetpos(p)`/`armas_wreset` give back the ranges
that reach beyond `p` (beyond 0).
-/

namespace Armas.Props

open Armas

/-- A range of bytes `[start, start+len)` handed to the caller. -/
structure WRange where
  start : Nat
  len : Nat

/-- Two ranges share no byte. -/
def WRange.disj (a b : WRange) : Prop := ∀ p, ¬ (a.start ≤ p ∧ p < a.start + a.len ∧
  b.start ≤ p ∧ p < b.start + b.len)

/-- Record the outcome of a reservation of `n` bytes. -/
def addLive (live : List WRange) (n : Nat) : Option Nat → List WRange
  | none => live
  | some p => ⟨p, n⟩ :: live

/-- Ranges that remain in use after the position is set back to `p`. -/
def keepBelow (live : List WRange) (p : Nat) : List WRange :=
  live.filter (fun r => decide (r.start + r.len ≤ p))

/-- Run one call and update the caller's view of the ranges in use. -/
def wstep (s : WBuf × List WRange) : WOp → WBuf × List WRange
  | .reserveBytes n => ((wreserveBytes s.1 n).2, addLive s.2 n (wreserveBytes s.1 n).1)
  | .reserve c sz => ((wreserve s.1 c sz).2, addLive s.2 (c * sz) (wreserve s.1 c sz).1)
  | .reserveBits c => ((wreserveBits s.1 c).2, addLive s.2 ((c + 7) / 8) (wreserveBits s.1 c).1)
  | .reset => (wreset s.1, [])
  | .setpos p => (wsetpos s.1 p, if p < s.1.bytes then keepBelow s.2 p else s.2)

/-- Run a whole history on a fresh buffer of `n` bytes. -/
def wrun (n : Nat) (ops : List WOp) : WBuf × List WRange := ops.foldl wstep (walloc n, [])

/-- The requested number of bytes is representable (no wrap-around in `count*sz`). -/
def _root_.Armas.WOp.fits : WOp → Prop
  | .reserveBytes n => n < SIZE_T
  | .reserve c sz => c * sz < SIZE_T
  | .reserveBits c => c + 7 < SIZE_T
  | .reset => True
  | .setpos _ => True

theorem szSub_eq {a b : Nat} (ha : a < SIZE_T) (hb : b ≤ a) : szSub a b = a - b := by
  unfold szSub
  have h : b % SIZE_T = b := Nat.mod_eq_of_lt (by omega)
  rw [h, show a + SIZE_T - b = (a - b) + SIZE_T by omega, Nat.add_mod_right]
  exact Nat.mod_eq_of_lt (by omega)

/-- C04: a reservation succeeds exactly when the bytes left suffice; it then returns the old
position and advances it by the request; otherwise nothing changes. -/
theorem C04_reserve_bytes (W : WBuf) (n : Nat) (hb : W.bytes < SIZE_T) (ho : W.offset ≤ W.bytes) :
    wreserveBytes W n = if n ≤ W.bytes - W.offset
      then (some W.offset, ⟨W.bytes, W.offset + n⟩) else (none, W) := by
  unfold wreserveBytes
  rw [szSub_eq hb ho]
  by_cases h : n ≤ W.bytes - W.offset
  · rw [if_pos h, if_neg (by omega), Nat.mod_eq_of_lt (by omega)]
  · rw [if_neg h, if_pos (by omega)]

example : wreserveBytes ⟨100, 40⟩ 60 = (some 40, ⟨100, 100⟩) :=
  C04_reserve_bytes ⟨100, 40⟩ 60 (by norm_num [SIZE_T_def]) (by norm_num)

/-- Everything in use lies before the position, ranges are disjoint. -/
structure WInv (n : Nat) (s : WBuf × List WRange) : Prop where
  bytes : s.1.bytes = n
  off : s.1.offset ≤ n
  inb : ∀ r ∈ s.2, r.start + r.len ≤ s.1.offset
  pw : s.2.Pairwise WRange.disj

theorem WInv.add {n : Nat} {s : WBuf × List WRange} (h : WInv n s) (hn : n < SIZE_T) (k : Nat) :
    WInv n ((wreserveBytes s.1 k).2, addLive s.2 k (wreserveBytes s.1 k).1) := by
  rw [C04_reserve_bytes s.1 k (h.bytes ▸ hn) (h.bytes ▸ h.off)]
  split
  · rename_i hk
    rw [h.bytes] at hk
    refine ⟨h.bytes, by have := h.off; dsimp only; omega, ?_, ?_⟩
    · intro r hr
      rcases List.mem_cons.mp hr with rfl | hr
      · exact le_refl _
      · have := h.inb r hr; dsimp only; omega
    · refine List.pairwise_cons.mpr ⟨?_, h.pw⟩
      intro r hr p hp
      have := h.inb r hr
      dsimp only at hp
      omega
  · exact h

theorem WInv.step {n : Nat} {s : WBuf × List WRange} (h : WInv n s) (hn : n < SIZE_T) {op : WOp}
    (hf : op.fits) : WInv n (wstep s op) := by
  cases op with
  | reserveBytes k => exact h.add hn k
  | reserve c sz =>
    have e : c * sz % SIZE_T = c * sz := Nat.mod_eq_of_lt hf
    have := h.add hn (c * sz)
    simpa only [wstep, wreserve, e] using this
  | reserveBits c =>
    have e : (c + 7) % SIZE_T = c + 7 := Nat.mod_eq_of_lt hf
    have := h.add hn ((c + 7) / 8)
    simpa only [wstep, wreserveBits, e] using this
  | reset => exact ⟨h.bytes, Nat.zero_le _, by simp [wstep], by simp [wstep]⟩
  | setpos p =>
    simp only [wstep, wsetpos]
    by_cases hp : p < s.1.bytes
    · rw [if_pos hp, if_pos hp]
      refine ⟨h.bytes, by have := h.bytes; dsimp only; omega, ?_, ?_⟩
      · intro r hr
        simpa [keepBelow] using (List.mem_filter.mp hr).2
      · exact h.pw.sublist List.filter_sublist
    · rw [if_neg hp, if_neg hp]; exact h

theorem wrun_inv (n : Nat) (hn : n < SIZE_T) (ops : List WOp) (hf : ∀ op ∈ ops, op.fits) :
    WInv n (wrun n ops) := by
  unfold wrun
  have : ∀ s, WInv n s → WInv n (ops.foldl wstep s) := by
    induction ops with
    | nil => intro s h; exact h
    | cons op t ih =>
      intro s h
      exact ih (fun o ho => hf o (List.mem_cons_of_mem _ ho)) _
        (h.step hn (hf op List.mem_cons_self))
  exact this _ ⟨rfl, Nat.zero_le _, by simp, by simp⟩

/-- C04: after any history of calls, all ranges in use lie inside the buffer and are pairwise
disjoint.  Partial: the histories exclude requests whose size `count*sz` does not fit `size_t`;
for those the claim is false (`C04_reserve_overflow_false`). -/
theorem C04_history_partial (n : Nat) (hn : n < SIZE_T) (ops : List WOp) (hf : ∀ op ∈ ops, op.fits) :
    (∀ r ∈ (wrun n ops).2, r.start + r.len ≤ n) ∧ (wrun n ops).2.Pairwise WRange.disj := by
  have h := wrun_inv n hn ops hf
  exact ⟨fun r hr => le_trans (h.inb r hr) h.off, h.pw⟩

example : (∀ r ∈ (wrun 100 [.reserveBytes 10, .reserve 5 8, .setpos 10, .reserveBits 70]).2,
    r.start + r.len ≤ 100) ∧ (wrun 100 [.reserveBytes 10, .reserve 5 8, .setpos 10,
      .reserveBits 70]).2.Pairwise WRange.disj :=
  C04_history_partial 100 (by norm_num [SIZE_T_def]) _ (by simp [WOp.fits, SIZE_T_def])

example : (wrun 100 [.reserveBytes 10, .reserve 5 8, .setpos 10, .reserveBits 70]).2.map
    (fun r => (r.start, r.len)) = [(10, 9), (0, 10)] := by
  norm_num [wrun, wstep, wreserveBytes, wreserve, wreserveBits, wsetpos, szSub, SIZE_T_def, walloc,
    addLive, keepBelow]

/-- C04: after a history the amount still available is the buffer size minus the position, and any
request up to that amount succeeds. -/
theorem C04_available (n : Nat) (hn : n < SIZE_T) (ops : List WOp) (hf : ∀ op ∈ ops, op.fits)
    (k : Nat) : (wreserveBytes (wrun n ops).1 k).1.isSome ↔ k ≤ wbytes (wrun n ops).1 := by
  have h := wrun_inv n hn ops hf
  have hb := h.bytes
  have ho := h.off
  rw [C04_reserve_bytes _ k (by omega) (by omega), wbytes, szSub_eq (by omega) (by omega)]
  split <;> simp_all

example : (wreserveBytes (wrun 100 [.reserveBytes 10]).1 90).1.isSome :=
  (C04_available 100 (by norm_num [SIZE_T_def]) [.reserveBytes 10] (by simp [WOp.fits, SIZE_T_def]) 90).mpr
    (by norm_num [wrun, wstep, wreserveBytes, szSub, SIZE_T_def, walloc, wbytes])

/-- Histories made of reservations only. -/
def _root_.Armas.WOp.isReserve : WOp → Prop
  | .reserveBytes _ => True
  | .reserve _ _ => True
  | .reserveBits _ => True
  | _ => False

/-- C04: save the position, make any reservations, restore: the buffer is exactly as before, so
exactly the space reserved in between is available again. -/
theorem C04_restore (W : WBuf) (hb : W.bytes < SIZE_T) (ho : W.offset ≤ W.bytes)
    (live : List WRange) (ops : List WOp) (hr : ∀ op ∈ ops, op.isReserve) :
    wsetpos (ops.foldl wstep (W, live)).1 (wpos W) = W := by
  have key : ∀ (s : WBuf × List WRange), s.1.bytes = W.bytes → W.offset ≤ s.1.offset →
      s.1.offset ≤ W.bytes → (ops.foldl wstep s).1.bytes = W.bytes ∧
      W.offset ≤ (ops.foldl wstep s).1.offset ∧ (ops.foldl wstep s).1.offset ≤ W.bytes := by
    induction ops with
    | nil => intro s h1 h2 h3; exact ⟨h1, h2, h3⟩
    | cons op t ih =>
      intro s h1 h2 h3
      have base : ∀ k, (wreserveBytes s.1 k).2.bytes = W.bytes ∧
          W.offset ≤ (wreserveBytes s.1 k).2.offset ∧ (wreserveBytes s.1 k).2.offset ≤ W.bytes := by
        intro k
        rw [C04_reserve_bytes s.1 k (by omega) (by omega)]
        split
        · exact ⟨h1, by dsimp only; omega, by dsimp only; omega⟩
        · exact ⟨h1, h2, h3⟩
      have hop := hr op List.mem_cons_self
      rw [List.foldl_cons]
      obtain ⟨k, l', e⟩ : ∃ k l', wstep s op = ((wreserveBytes s.1 k).2, l') := by
        cases op with
        | reserveBytes k => exact ⟨k, addLive s.2 k (wreserveBytes s.1 k).1, by simp only [wstep]⟩
        | reserve c sz =>
          exact ⟨c * sz % SIZE_T, addLive s.2 (c * sz) (wreserve s.1 c sz).1,
            by simp only [wstep, wreserve]⟩
        | reserveBits c =>
          exact ⟨(c + 7) % SIZE_T / 8, addLive s.2 ((c + 7) / 8) (wreserveBits s.1 c).1,
            by simp only [wstep, wreserveBits]⟩
        | reset => exact hop.elim
        | setpos p => exact hop.elim
      rw [e]
      exact ih (fun o ho => hr o (List.mem_cons_of_mem _ ho)) _ (base k).1 (base k).2.1 (base k).2.2
  obtain ⟨h1, h2, h3⟩ := key (W, live) rfl (le_refl _) ho
  unfold wsetpos wpos
  split
  · obtain ⟨b, o⟩ := W
    dsimp only at *
    rw [h1]
  · generalize ops.foldl wstep (W, live) = s at *
    obtain ⟨⟨b', o'⟩, l⟩ := s
    obtain ⟨b, o⟩ := W
    dsimp only at *
    have : o' = o := by omega
    rw [h1, this]

example : wsetpos ([WOp.reserveBytes 10, .reserve 5 8].foldl wstep (⟨100, 20⟩, [])).1
    (wpos ⟨100, 20⟩) = ⟨100, 20⟩ :=
  C04_restore ⟨100, 20⟩ (by norm_num [SIZE_T_def]) (by norm_num) [] _ (by simp [WOp.isReserve])

/-- C04 is false when `count*sz` exceeds `size_t`: 2^61+1 elements of 8 bytes are "reserved" in a
buffer of 16 bytes (the product wraps to 8). -/
theorem C04_reserve_overflow_false :
    ∃ (W : WBuf) (count sz : Nat), count < SIZE_T ∧ sz < SIZE_T ∧ W.offset ≤ W.bytes ∧
      W.bytes < count * sz ∧ (wreserve W count sz).1 = some W.offset :=
  ⟨⟨16, 0⟩, 2 ^ 61 + 1, 8, by norm_num [SIZE_T_def], by norm_num [SIZE_T_def], by norm_num, by norm_num,
    by norm_num [wreserve, wreserveBytes, szSub, SIZE_T_def]⟩

/-- C04, remark: reservations are not aligned, although the comment in the code says so: after one
byte the next reservation starts at byte 1. -/
theorem C04_reserve_unaligned :
    ∃ (W : WBuf) (p : Nat), W = (wreserveBytes (walloc 64) 1).2 ∧
      (wreserve W 2 8).1 = some p ∧ ¬ 8 ∣ p :=
  ⟨_, 1, rfl, by norm_num [wreserve, wreserveBytes, szSub, SIZE_T_def, walloc], by norm_num⟩

end Armas.Props
