import Verif.Mem
import Mathlib.Tactic.IrreducibleDef

/-!
# Workspace buffers

Model of the workspace functions of `src/include/armas.h:541-664`.  `size_t` values are natural
numbers below `2^64`; the product in `armas_wreserve` wraps.  The buffer pointer itself is left out:
a returned pointer is its byte offset into the buffer.
-/

namespace Armas

/-- Number of `size_t` values (64-bit platform; sealed only to keep the kernel from computing with
the literal). -/
irreducible_def SIZE_T : Nat := 2 ^ 64

/-- `armas_wbuf_t` (`src/include/armas.h:541-545`). -/
structure WBuf where
  bytes : Nat
  offset : Nat
deriving DecidableEq, Repr

/-- `armas_walloc` (`src/include/armas.h:555-562`), successful allocation. -/
def walloc (nbytes : Nat) : WBuf := ⟨nbytes, 0⟩

/-- `size_t` subtraction. -/
def szSub (a b : Nat) : Nat := (a + SIZE_T - b % SIZE_T) % SIZE_T

/-- `armas_wreserve_bytes` (`src/include/armas.h:600-607`); `none` is the null pointer. -/
def wreserveBytes (W : WBuf) (nbytes : Nat) : Option Nat × WBuf :=
  if nbytes > szSub W.bytes W.offset then (none, W)
  else (some W.offset, { W with offset := (W.offset + nbytes) % SIZE_T })

/-- `armas_wreserve` (`src/include/armas.h:611-614`). -/
def wreserve (W : WBuf) (count sz : Nat) : Option Nat × WBuf :=
  wreserveBytes W (count * sz % SIZE_T)

/-- `armas_wreserve_bits` (`src/include/armas.h:617-621`). -/
def wreserveBits (W : WBuf) (count : Nat) : Option Nat × WBuf :=
  wreserveBytes W ((count + 7) % SIZE_T / 8)

/-- `armas_wreset` (`src/include/armas.h:625-628`). -/
def wreset (W : WBuf) : WBuf := { W with offset := 0 }

/-- `armas_wbytes` (`src/include/armas.h:639-642`). -/
def wbytes (W : WBuf) : Nat := szSub W.bytes W.offset

/-- `armas_wpos` (`src/include/armas.h:646-649`). -/
def wpos (W : WBuf) : Nat := W.offset

/-- `armas_wsetpos` (`src/include/armas.h:660-664`). -/
def wsetpos (W : WBuf) (pos : Nat) : WBuf :=
  if pos < W.bytes then { W with offset := pos } else W

/-- One call on a workspace. -/
inductive WOp where
  | reserveBytes (n : Nat)
  | reserve (count sz : Nat)
  | reserveBits (count : Nat)
  | reset
  | setpos (pos : Nat)

end Armas
