import Verif.QlSpec
import Verif.QrFacLemmas

/-!
# A QL factorization is a QR factorization with rows and columns in opposite order
-/

namespace Armas

open Finset

variable {α : Type} [CommRing α]

theorem refl_flip {M N i j : Nat} {t : α} {w w' : Nat → α} {b b' : Nat → Nat → α} (hi : i < M) (hw : ∀ l, l < M → w l = w' (M - 1 - l))
    (hb : ∀ l, l < M → b l j = b' (M - 1 - l) (N - 1 - j)) : refl M t w b i j = refl M t w' b' (M - 1 - i) (N - 1 - j) := by
  unfold refl
  rw [hw i hi, hb i hi, ← sum_range_reflect (fun l => w' l * b' l (N - 1 - j))]
  refine congrArg _ (congrArg _ (sum_congr rfl fun l hl => ?_))
  rw [hw l (mem_range.mp hl), hb l (mem_range.mp hl)]

theorem qlw_flip {M N d : Nat} {f F : Nat → Nat → α} (hNM : N ≤ M) (hd : d < N) (hF : ∀ i j, i < M → j < N → F i j = f (M - 1 - i) (N - 1 - j)) :
    ∀ l, l < M → qrw F d l = qlw M N f (N - 1 - d) (M - 1 - l) := by
  intro l hl
  unfold qrw qlw
  by_cases c : l < d
  · rw [if_pos c, if_pos (by omega)]
  · rw [if_neg c, if_neg (show ¬ M - N + (N - 1 - d) < M - 1 - l by omega)]
    by_cases c2 : l = d
    · rw [if_pos c2, if_pos (by omega)]
    · rw [if_neg c2, if_neg (by omega), hF l d hl hd]

theorem qlProd_flip {M N : Nat} {t s : Nat → α} {f F : Nat → Nat → α} (hNM : N ≤ M) (hF : ∀ i j, i < M → j < N → F i j = f (M - 1 - i) (N - 1 - j))
    (hs : ∀ d, d < N → s d = t (N - 1 - d)) (j : Nat) : ∀ (d : Nat) (b B : Nat → Nat → α), d ≤ N → (∀ i, i < M → B i j = b (M - 1 - i) (N - 1 - j)) →
    ∀ i, i < M → qrProd M d s F B i j = qlProd M N d t f b (M - 1 - i) (N - 1 - j)
  | 0, b, B, _, hB, i, hi => hB i hi
  | d + 1, b, B, hd, hB, i, hi => by
    unfold qrProd qlProd
    refine qlProd_flip hNM hF hs j d _ _ (by omega) (fun i hi => ?_) i hi
    rw [hs d (by omega)]
    exact refl_flip hi (qlw_flip hNM (by omega) hF) hB

theorem qlProdT_flip {M N : Nat} {t s : Nat → α} {f F : Nat → Nat → α} (hNM : N ≤ M) (hF : ∀ i j, i < M → j < N → F i j = f (M - 1 - i) (N - 1 - j))
    (hs : ∀ d, d < N → s d = t (N - 1 - d)) (j : Nat) (b B : Nat → Nat → α) (hB : ∀ i, i < M → B i j = b (M - 1 - i) (N - 1 - j)) : ∀ (d : Nat), d ≤ N →
    ∀ i, i < M → qrProdT M d s F B i j = qlProdT M N d t f b (M - 1 - i) (N - 1 - j)
  | 0, _, i, hi => hB i hi
  | d + 1, hd, i, hi => by
    unfold qrProdT qlProdT
    rw [hs d (by omega)]
    exact refl_flip hi (qlw_flip hNM (by omega) hF) (qlProdT_flip hNM hF hs j b B hB d (by omega))

theorem qlLower_flip {M N : Nat} {f F : Nat → Nat → α} (hNM : N ≤ M) (hF : ∀ i j, i < M → j < N → F i j = f (M - 1 - i) (N - 1 - j)) {i j : Nat}
    (hi : i < M) (hj : j < N) : qrMid N F i j = qlLower M N f (M - 1 - i) (N - 1 - j) := by
  unfold qrMid qlLower
  by_cases c : j < i
  · rw [if_pos ⟨hj, c⟩, if_pos (by omega)]
  · rw [if_neg (fun h => c h.2), if_neg (by omega), hF i j hi hj]

end Armas
