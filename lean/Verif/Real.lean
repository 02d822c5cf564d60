import Verif.Interleave

/-!
# The threads of the modelled functions

`RealM W f`: the modelled function `f : Mem α → Res (Mem α)` is the behaviour of a thread that performs the
accesses one after the other as `f` does and writes only to `W`.  `RealR W f` is the same for functions that
only read.  The rules below build the thread along the definition of `f`.
-/

namespace Armas

variable {α β γ : Type}

/-- All results of a thread, whatever values it reads. -/
def Prog.Rets (Φ : β → Prop) : Prog α β → Prop
  | .ret r => ∀ b, r = .ok b → Φ b
  | .rd _ k => ∀ v, Rets Φ (k v)
  | .wr _ _ k => Rets Φ k

/-- `f` is the behaviour of a thread with writes in `W` and results in `Φ`. -/
def Real (W : Set Nat) (Φ : β → Prop) (f : Mem α → Res (β × Mem α)) : Prop :=
  ∃ P : Prog α β, P.Writes W ∧ P.Rets Φ ∧ ∀ m, P.run m = f m

/-- The same for a function that returns the memory. -/
def RealM (W : Set Nat) (f : Mem α → Res (Mem α)) : Prop :=
  Real W (fun _ : Unit => True) (fun m => f m >>= fun m' => .ok ((), m'))

/-- The same for a function that reads. -/
def RealR (W : Set Nat) (f : Mem α → Res β) : Prop :=
  Real W (fun _ => True) (fun m => f m >>= fun b => .ok (b, m))

variable {W : Set Nat}

theorem Prog.Rets.bind {Φ : β → Prop} {Ψ : γ → Prop} {P : Prog α β} {g : β → Prog α γ}
    (h : P.Rets Φ) (hg : ∀ b, Φ b → (g b).Rets Ψ) : (P.bind g).Rets Ψ := by
  induction P with
  | ret r => cases r with
    | ok b => exact hg b (h b rfl)
    | ub => intro b hb; cases hb
    | diverge => intro b hb; cases hb
  | rd p k ih => exact fun v => ih v (h v)
  | wr p v k ih => exact ih h

theorem Prog.Writes.bind' {Φ : β → Prop} {P : Prog α β} {g : β → Prog α γ} (h : P.Writes W) (hr : P.Rets Φ)
    (hg : ∀ b, Φ b → (g b).Writes W) : (P.bind g).Writes W := by
  induction P with
  | ret r => cases r with
    | ok b => exact hg b (hr b rfl)
    | ub => trivial
    | diverge => trivial
  | rd p k ih => exact fun v => ih v (h v) (hr v)
  | wr p v k ih => exact ⟨h.1, ih h.2 hr⟩

theorem Real.congr {Φ : β → Prop} {f g : Mem α → Res (β × Mem α)} (h : Real W Φ f) (e : ∀ m, g m = f m) :
    Real W Φ g := by
  obtain ⟨P, h1, h2, h3⟩ := h
  exact ⟨P, h1, h2, fun m => by rw [h3, e]⟩

theorem Prog.Rets.mono {Φ Ψ : β → Prop} {P : Prog α β} (h : P.Rets Φ) (hh : ∀ b, Φ b → Ψ b) : P.Rets Ψ := by
  induction P with
  | ret r => exact fun b hb => hh b (h b hb)
  | rd p k ih => exact fun v => ih v (h v)
  | wr p v k ih => exact ih h

theorem Real.mono {Φ Ψ : β → Prop} {f : Mem α → Res (β × Mem α)} (h : Real W Φ f) (hh : ∀ b, Φ b → Ψ b) :
    Real W Ψ f := by
  obtain ⟨P, h1, h2, h3⟩ := h
  exact ⟨P, h1, h2.mono hh, h3⟩

theorem Prog.Writes.mono {W' : Set Nat} {P : Prog α β} (h : P.Writes W) (hh : W ⊆ W') : P.Writes W' := by
  induction P with
  | ret r => trivial
  | rd p k ih => exact fun v => ih v (h v)
  | wr p v k ih => exact ⟨hh h.1, ih h.2⟩

theorem RealM.mono {W' : Set Nat} {f : Mem α → Res (Mem α)} (h : RealM W f) (hh : W ⊆ W') : RealM W' f := by
  obtain ⟨P, h1, h2, h3⟩ := h
  exact ⟨P, h1.mono hh, h2, h3⟩

theorem Real.ok {Φ : β → Prop} {b : β} (h : Φ b) : Real W Φ (fun m : Mem α => .ok (b, m)) :=
  ⟨.ret (.ok b), trivial, fun b' e => by cases e; exact h, fun _ => rfl⟩

theorem Real.bind {Φ : β → Prop} {Ψ : γ → Prop} {f : Mem α → Res (β × Mem α)}
    {g : β × Mem α → Res (γ × Mem α)} (h : Real W Φ f) (hg : ∀ b, Φ b → Real W Ψ (fun m => g (b, m))) :
    Real W Ψ (fun m => f m >>= g) := by
  obtain ⟨P, h1, h2, h3⟩ := h
  have : Nonempty (Prog α γ) := ⟨.ret .ub⟩
  choose! G hG using hg
  refine ⟨P.bind G, h1.bind' h2 (fun b hb => (hG b hb).1), h2.bind (fun b hb => (hG b hb).2.1), ?_⟩
  intro m
  have key : ∀ (P : Prog α β) (m : Mem α), P.Rets Φ → (P.bind G).run m = P.run m >>= g := by
    intro P
    induction P with
    | ret r =>
      intro m hr
      cases r with
      | ok b => exact (hG b (hr b rfl)).2.2 m
      | ub => rfl
      | diverge => rfl
    | rd p k ih =>
      intro m hr
      simp only [Prog.bind, Prog.run]
      cases h : Armas.rd m p with
      | ok v => exact ih v m (hr v)
      | ub => rfl
      | diverge => rfl
    | wr p v k ih =>
      intro m hr
      simp only [Prog.bind, Prog.run]
      cases h : Armas.wr m p v with
      | ok m' => exact ih m' hr
      | ub => rfl
      | diverge => rfl
  rw [key P m h2, h3]

theorem RealM.ok : RealM W (fun m : Mem α => .ok m) := Real.ok (b := ()) trivial
theorem RealM.pure : RealM W (fun m : Mem α => Pure.pure m) := Real.ok (b := ()) trivial
theorem RealM.ub : RealM W (fun _ : Mem α => .ub) :=
  ⟨.ret .ub, trivial, fun b e => (by cases e), fun _ => rfl⟩
theorem RealR.ok {b : β} : RealR W (fun _ : Mem α => .ok b) := Real.ok (b := b) trivial
theorem RealR.pure {b : β} : RealR W (fun _ : Mem α => Pure.pure b) := Real.ok (b := b) trivial

theorem RealR.rd {p : Nat} : RealR W (fun m : Mem α => Armas.rd m p) := by
  refine ⟨.rd p (fun v => .ret (.ok v)), fun _ => trivial, fun v b _ => trivial, fun m => ?_⟩
  simp only [Prog.run]
  cases Armas.rd m p <;> rfl

theorem RealM.wr {p : Nat} {v : α} (h : p ∈ W) : RealM W (fun m : Mem α => Armas.wr m p v) := by
  refine ⟨.wr p v (.ret (.ok ())), ⟨h, trivial⟩, fun b _ => trivial, fun m => ?_⟩
  simp only [Prog.run]
  cases Armas.wr m p v <;> rfl

/-- A value and the memory, then the rest. -/
theorem Real.bindM {Φ : β → Prop} {f : Mem α → Res (β × Mem α)} {g : β × Mem α → Res (Mem α)}
    (h : Real W Φ f) (hg : ∀ b, Φ b → RealM W (fun m => g (b, m))) : RealM W (fun m => f m >>= g) := by
  refine (Real.bind (g := fun x => g x >>= fun m' => .ok ((), m')) h hg).congr (fun m => ?_)
  show (f m >>= g) >>= _ = f m >>= _
  cases f m <;> rfl

theorem RealM.seq {f h : Mem α → Res (Mem α)} (h1 : RealM W f) (h2 : RealM W h) :
    RealM W (fun m => f m >>= h) := by
  refine (Real.bind (g := fun x => h x.2 >>= fun m' => .ok ((), m')) h1 (fun _ _ => h2)).congr (fun m => ?_)
  show (f m >>= h) >>= _ = (f m >>= _) >>= _
  cases f m <;> rfl

/-- A memory, then a value and the memory. -/
theorem RealM.bindV {Ψ : γ → Prop} {f : Mem α → Res (Mem α)} {g : Mem α → Res (γ × Mem α)} (h : RealM W f)
    (hg : Real W Ψ g) : Real W Ψ (fun m => f m >>= g) := by
  refine (Real.bind (g := fun x => g x.2) h (fun _ _ => hg)).congr (fun m => ?_)
  show f m >>= g = (f m >>= _) >>= _
  cases f m <;> rfl

theorem RealM.read {f : Mem α → Res β} {h : Mem α → β → Res (Mem α)} (h1 : RealR W f)
    (h2 : ∀ b, RealM W (fun m => h m b)) : RealM W (fun m => f m >>= fun b => h m b) := by
  refine (Real.bind (g := fun x => h x.2 x.1 >>= fun m' => .ok ((), m')) h1 (fun b _ => h2 b)).congr (fun m => ?_)
  show (f m >>= fun b => h m b) >>= _ = (f m >>= _) >>= _
  cases f m <;> rfl

theorem RealR.read {f : Mem α → Res β} {h : Mem α → β → Res γ} (h1 : RealR W f)
    (h2 : ∀ b, RealR W (fun m => h m b)) : RealR W (fun m => f m >>= fun b => h m b) := by
  refine (Real.bind (g := fun x => h x.2 x.1 >>= fun b => .ok (b, x.2)) h1 (fun b _ => h2 b)).congr (fun m => ?_)
  show (f m >>= fun b => h m b) >>= _ = (f m >>= _) >>= _
  cases f m <;> rfl

theorem RealM.ite {c : Prop} [Decidable c] {f g : Mem α → Res (Mem α)} (h1 : c → RealM W f) (h2 : ¬ c → RealM W g) :
    RealM W (fun m => if c then f m else g m) := by
  by_cases h : c
  · simp only [if_pos h]; exact h1 h
  · simp only [if_neg h]; exact h2 h

theorem RealR.ite {c : Prop} [Decidable c] {f g : Mem α → Res β} (h1 : c → RealR W f) (h2 : ¬ c → RealR W g) :
    RealR W (fun m => if c then f m else g m) := by
  by_cases h : c
  · simp only [if_pos h]; exact h1 h
  · simp only [if_neg h]; exact h2 h

/-- A loop over the memory. -/
theorem Real.forUp {i n s : Nat} {body : Nat → Mem α → Res (Mem α)}
    (h : ∀ k, i ≤ k → k < n → RealM W (body k)) :
    Real W (fun k => i ≤ k ∧ n ≤ k ∧ (k = i ∨ (i < n ∧ k < n + s))) (fun m => Armas.forUp i n s body m) := by
  by_cases hin : i < n
  · by_cases hs : 0 < s
    · induction hd : n - i using Nat.strong_induction_on generalizing i with
      | _ d ih =>
        have e : ∀ m, Armas.forUp i n s body m = body i m >>= fun m' => Armas.forUp (i + s) n s body m' := by
          intro m; rw [forUp_eq, if_pos hin, if_pos hs]
        refine Real.congr ?_ e
        refine RealM.bindV (h i le_rfl hin) ?_
        by_cases hin' : i + s < n
        · refine (ih (n - (i + s)) (by omega) (fun k hk hkn => h k (by omega) hkn) hin' rfl).mono ?_
          intro k hk; omega
        · refine Real.congr (Real.ok (b := i + s) (by omega)) (fun m => ?_)
          rw [forUp_eq, if_neg hin']
    · refine ⟨.ret .diverge, trivial, fun b e => (by cases e), fun m => ?_⟩
      beta_reduce
      rw [forUp_eq, if_pos hin, if_neg hs]
      rfl
  · refine Real.congr (Real.ok (b := i) (by omega)) (fun m => ?_)
    rw [forUp_eq, if_neg hin]

/-- A loop that reads; the state is not the memory. -/
theorem RealR.forUp {σ : Type} {i n s : Nat} {body : Mem α → Nat → σ → Res σ} {st : σ}
    (h : ∀ k st, i ≤ k → k < n → RealR W (fun m => body m k st)) :
    RealR W (fun m => Armas.forUp i n s (body m) st) := by
  by_cases hin : i < n
  · by_cases hs : 0 < s
    · induction hd : n - i using Nat.strong_induction_on generalizing i st with
      | _ d ih =>
        have e : ∀ m, Armas.forUp i n s (body m) st = body m i st >>= fun st' => Armas.forUp (i + s) n s (body m) st' := by
          intro m; rw [forUp_eq, if_pos hin, if_pos hs]
        simp only [e]
        refine RealR.read (h i st le_rfl hin) ?_
        intro st'
        by_cases hin' : i + s < n
        · exact ih (n - (i + s)) (by omega) (fun k st hk hkn => h k st (by omega) hkn) hin' rfl
        · refine Real.congr (RealR.ok (b := (i + s, st'))) (fun m => ?_)
          beta_reduce
          rw [forUp_eq, if_neg hin']
    · refine ⟨.ret .diverge, trivial, fun b e => (by cases e), fun m => ?_⟩
      beta_reduce
      rw [forUp_eq, if_pos hin, if_neg hs]
      rfl
  · refine Real.congr (RealR.ok (b := (i, st))) (fun m => ?_)
    beta_reduce
    rw [forUp_eq, if_neg hin]

theorem RealM.forDown {n : Nat} {body : Nat → Mem α → Res (Mem α)} (h : ∀ k, k < n → RealM W (body k)) :
    RealM W (fun m => Armas.forDown n body m) := by
  induction n with
  | zero => exact RealM.ok
  | succ n ih => exact RealM.seq (h n (by omega)) (ih (fun k hk => h k (by omega)))

/-- A loop as the last part of a function that returns the memory. -/
theorem RealM.forUp {i n s : Nat} {body : Nat → Mem α → Res (Mem α)}
    (h : ∀ k, i ≤ k → k < n → RealM W (body k)) :
    RealM W (fun m => Armas.forUp i n s body m >>= fun x => Pure.pure x.2) :=
  Real.bindM (Real.forUp h) (fun _ _ => RealM.pure)

theorem RealM.switchTail {r i N : Nat} {step : Nat → Mem α → Res (Mem α)} (hr : i + r ≤ N)
    (h : ∀ k, i ≤ k → k < N → RealM W (step k)) : RealM W (fun m => Armas.switchTail r i step m) := by
  unfold Armas.switchTail
  match r, hr with
  | 0, _ => exact RealM.ok
  | 1, hr => exact h _ (by omega) (by omega)
  | 2, hr => exact RealM.seq (h _ (by omega) (by omega)) (h _ (by omega) (by omega))
  | 3, hr => exact RealM.seq (h _ (by omega) (by omega)) (RealM.seq (h _ (by omega) (by omega)) (h _ (by omega) (by omega)))
  | r + 4, _ => exact RealM.ok

end Armas
