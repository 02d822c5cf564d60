import Verif.JsonRead

/-! # Writing and reading a JSON matrix -/

namespace Armas

variable {α : Type} {iob : Mem Int} {b : Nat}

/-- Text of the elements `n, n+1, …` (`cnt` of them) of a data array; every element but element 0
has a comma in front. -/
def restText (f : Nat → List Int) : Nat → Nat → List Int
  | _, 0 => []
  | n, cnt + 1 => (if 0 < n then [44] else []) ++ f n ++ restText f (n + 1) cnt

theorem restText_snoc (f : Nat → List Int) : ∀ (cnt n : Nat),
    restText f n (cnt + 1) = restText f n cnt ++ (if 0 < n + cnt then [44] else []) ++ f (n + cnt) := by
  intro cnt
  induction cnt with
  | zero => intro n; simp [restText]
  | succ cnt ih =>
    intro n
    rw [restText, ih (n + 1), restText, show n + 1 + cnt = n + (cnt + 1) by omega]
    simp

theorem writeElems_text {fin : α → Bool} {fmt : α → List Int} {m : Mem α} {A : View}
    {a : Nat → Nat → α} (hA : Holds m A a) :
    writeElems fin fmt m A =
      .ok (restText (fun k => writeNum fin fmt (a (k % A.rows) (k / A.rows))) 0 (A.rows * A.cols)) := by
  set f : Nat → List Int := fun k => writeNum fin fmt (a (k % A.rows) (k / A.rows)) with hf
  have key : Runs (writeElems fin fmt m A) (fun o => o = restText f 0 (A.rows * A.cols)) := by
    unfold writeElems
    refine Runs.bind (P := fun r => r.2.2 = restText f 0 (A.rows * A.cols)) ?_ (fun r hr => Runs.ok hr)
    refine Runs.forUp1 (fun j s => s = (A.rows * j, restText f 0 (A.rows * j))) (Nat.zero_le _)
      (by simp [restText]) ?_ (fun s h => by rw [h])
    intro j s _ hj hs
    refine Runs.bind (P := fun r => r.2 = (A.rows * (j + 1), restText f 0 (A.rows * (j + 1)))) ?_
      (fun r hr => Runs.ok hr)
    refine Runs.forUp1 (fun i s => s = (A.rows * j + i, restText f 0 (A.rows * j + i))) (Nat.zero_le _)
      (by simp [hs]) ?_ (fun s h => by rw [h, Nat.mul_succ])
    intro i s _ hi hs
    refine Runs.rd_bind (hA i j hi hj) (Runs.ok ?_)
    have e1 : (A.rows * j + i) % A.rows = i := by rw [Nat.mul_add_mod, Nat.mod_eq_of_lt hi]
    have e2 : (A.rows * j + i) / A.rows = j := by
      rw [Nat.mul_add_div (by omega), Nat.div_eq_of_lt hi, Nat.add_zero]
    rw [hs, ← Nat.add_assoc, restText_snoc]
    simp only [Nat.zero_add, hf, e1, e2]
    split <;> simp
  obtain ⟨o, e, ho⟩ := key
  rw [e, ho]

/-- Element texts that read back as the values `v`. -/
def ReadsAs (scan : List Int → α) (f : Nat → List Int) (v : Nat → α) (N : Nat) : Prop :=
  ∀ k, k < N → JNum (f k) ∧ (f k).length ≤ 62 ∧ scan (f k) = v k

/-- State of `armas_json_read_data` before element `k`. -/
structure DInv (b ab N : Nat) (f : Nat → List Int) (v : Nat → α) (rest : List Int) (k : Nat)
    (d : DatS α) : Prop where
  stop : d.stop = none
  n : d.n = k
  inp : d.rd.inp = restText f k (N - k) ++ 93 :: rest
  buf : BufOk d.rd.iob b 64
  alloc : ∀ l, l < N → ∃ w, d.mem (ab + l) = some w
  vals : ∀ l, l < k → d.mem (ab + l) = some (v l)

theorem readElem_step {scan : List Int → α} {f : Nat → List Int} {v : Nat → α} {ab N fuel k : Nat}
    {rest : List Int} {A : View} {i j : Nat} (hf : ReadsAs scan f v N) (hk : k < N)
    (hp : A.at' i j = ab + k) {d : DatS α} (h : DInv b ab N f v rest k d) :
    Runs (do
      let d ← readSep b 64 d
      if d.stop.isSome then .ok d else readElem scan fuel b 64 A i j d)
      (DInv b ab N f v rest (k + 1)) := by
  obtain ⟨dn, dm, ⟨di, dinp⟩, ds⟩ := d
  obtain ⟨h1, h2, h3, h4, h5, h6⟩ := h
  dsimp only at h1 h2 h3 h4 h5 h6
  subst h1 h2
  obtain ⟨fn, fl, fs⟩ := hf dn hk
  -- the text behind the separator
  obtain ⟨c, r, er, hc⟩ : ∃ c r, restText f (dn + 1) (N - (dn + 1)) ++ 93 :: rest = c :: r ∧ endsNum c = true := by
    by_cases e : N - (dn + 1) = 0
    · exact ⟨93, rest, by rw [e]; simp [restText], by decide⟩
    · obtain ⟨q, hq⟩ : ∃ q, N - (dn + 1) = q + 1 := ⟨N - (dn + 1) - 1, by omega⟩
      rw [hq, restText, if_pos (by omega)]
      exact ⟨44, _, by simp only [List.append_assoc, List.singleton_append]; rfl, by decide⟩
  have hsep : readSep b 64 (⟨dn, dm, ⟨di, dinp⟩, none⟩ : DatS α) =
      .ok ⟨dn, dm, ⟨di, f dn ++ c :: r⟩, none⟩ := by
    have ei : dinp = (if 0 < dn then [44] else []) ++ f dn ++ c :: r := by
      rw [h3, show N - dn = (N - (dn + 1)) + 1 by omega, restText, List.append_assoc, er]
    unfold readSep
    by_cases e : 0 < dn
    · rw [if_pos e]
      rw [if_pos e] at ei
      rw [ei, List.append_assoc, List.singleton_append, nextTok_ch (by simp)]
      simp
    · rw [if_neg e]
      rw [if_neg e, List.nil_append] at ei
      rw [ei]
  obtain ⟨i1, e1, a1, s1⟩ := nextTok_num (r := r) h4 fn (by omega) hc
  obtain ⟨w, hw⟩ := h5 dn hk
  rw [hsep]
  simp only [Res.ok_bind, Option.isSome_none, Bool.false_eq_true, if_false]
  unfold readElem
  rw [e1]
  simp only [Res.ok_bind, ne_eq, not_true_eq_false, if_false, s1]
  rw [hp]
  refine Runs.wr_bind hw (Runs.ok ⟨rfl, rfl, er.symm, a1, fun l hl => ?_, fun l hl => ?_⟩)
  · by_cases e : ab + l = ab + dn
    · exact ⟨scan (f dn), by rw [e]; simp⟩
    · dsimp only; rw [Mem.set_ne _ _ e]; exact h5 l hl
  · by_cases e : l = dn
    · subst e; simp [fs]
    · dsimp only; rw [Mem.set_ne _ _ (by omega)]; exact h6 l (by omega)

theorem readData_text {scan : List Int → α} {f : Nat → List Int} {v : Nat → α} {fuel : Nat}
    {rest : List Int} {A : View} {m : Mem α} (hf : ReadsAs scan f v (A.rows * A.cols))
    (hA : A.rows * A.cols = 0 ∨ A.step = A.rows) (hb : BufOk iob b 64)
    (hm : ∀ l, l < A.rows * A.cols → ∃ w, m (A.base + l) = some w) :
    ∃ iob' m', readData scan fuel b 64 A m ⟨iob, restText f 0 (A.rows * A.cols) ++ 93 :: rest⟩ =
      .ok (some (A.rows * A.cols), m', ⟨iob', 93 :: rest⟩) ∧ BufOk iob' b 64 ∧
      ∀ l, l < A.rows * A.cols → m' (A.base + l) = some (v l) := by
  set N := A.rows * A.cols with hN
  have key : Runs (readData scan fuel b 64 A m ⟨iob, restText f 0 N ++ 93 :: rest⟩)
      (fun r => ∃ iob' m', r = (some N, m', ⟨iob', 93 :: rest⟩) ∧ BufOk iob' b 64 ∧
        ∀ l, l < N → m' (A.base + l) = some (v l)) := by
    unfold readData
    refine Runs.bind (P := fun r => DInv b A.base N f v rest N r.2) ?_ ?_
    · refine Runs.forUp1 (fun j d => DInv b A.base N f v rest (A.rows * j) d) (Nat.zero_le _)
        ⟨rfl, by simp, by simp, hb, hm, by simp⟩ ?_ (fun d h => h)
      intro j d _ hj hd
      refine Runs.bind (P := fun r => DInv b A.base N f v rest (A.rows * (j + 1)) r.2) ?_
        (fun r hr => Runs.ok hr)
      refine Runs.forUp1 (fun i d => DInv b A.base N f v rest (A.rows * j + i) d) (Nat.zero_le _)
        hd ?_ (fun d h => by rw [Nat.mul_succ]; exact h)
      intro i d _ hi hd
      have hk : A.rows * j + i < N := by
        have : A.rows * j + A.rows ≤ A.rows * A.cols := by
          rw [← Nat.mul_succ]; exact Nat.mul_le_mul_left _ hj
        omega
      have hs : A.step = A.rows := by
        rcases hA with h | h
        · omega
        · exact h
      have e := hd.stop
      simp only [e, Option.isSome_none, Bool.false_eq_true, if_false]
      refine readElem_step hf hk ?_ hd
      simp only [View.at', hs]
      rw [Nat.mul_comm A.rows j]; omega
    · rintro ⟨_, d⟩ hd
      dsimp only at hd ⊢
      rw [hd.stop]
      refine Runs.ok ⟨d.rd.iob, d.mem, ?_, hd.buf, hd.vals⟩
      have e := hd.inp
      rw [Nat.sub_self] at e
      have e2 : d.rd = ⟨d.rd.iob, 93 :: rest⟩ := by
        rw [show d.rd = ⟨d.rd.iob, d.rd.inp⟩ from rfl, e]; rfl
      rw [hd.n, ← e2]
  obtain ⟨r, e, iob', m', rfl, h1, h2⟩ := key
  exact ⟨iob', m', e, h1, h2⟩

/-! ## Header -/

theorem hdrLoop_step {f : Nat} {first : Bool} {h h' : Hdr} {s s' : RdS} {t : JTok}
    (hs : h.st ≠ .dtaVal) (e : nextTok b 64 s = .ok (t, s'))
    (e' : hdrStep b first t s'.iob h = .ok (.go h')) :
    hdrLoop b (f + 1) first h s = hdrLoop b f false h' s' := by
  rw [hdrLoop, if_neg hs, e]
  simp only [Res.ok_bind]
  rw [e']
  rfl

/-- A key of plain letters. -/
def PlainKey (key : List Int) : Prop :=
  key.length + 2 ≤ 64 ∧ ∀ c ∈ key, 32 < c ∧ c < 127 ∧ c ≠ 34 ∧ c ≠ 92 ∧ c ≠ 47

theorem PlainKey.enc {key : List Int} (h : ∀ c ∈ key, 32 < c ∧ c < 127 ∧ c ≠ 34 ∧ c ≠ 92 ∧ c ≠ 47) :
    StrEnc key key := by
  induction key with
  | nil => exact .nil
  | cons c r ih =>
    have := h c (by simp)
    exact .plain (by omega) (by omega) (by omega) (by omega) (ih (fun c hc => h c (by simp [hc])))

/-- Text of a header member. -/
def memberText (key : List Int) (v : Int) (r : List Int) : List Int :=
  34 :: (key ++ 34 :: 58 :: (intText v ++ 44 :: r))

theorem hdr_member {f : Nat} {first : Bool} {h h1 : Hdr} {st2 : MSt} {kf : Int → Hdr} {key r : List Int}
    {v : Int} (hb : BufOk iob b 64) (hk : PlainKey key) (hv : IsInt v) (hst : h.st = .key)
    (e1 : hdrKey key h = .go h1) (n1 : h1.st ≠ .dtaVal)
    (e2 : ∀ t i, hdrStep b false t i h1 = hdrSep t (.ch 58) h1 st2) (n2 : st2 ≠ .dtaVal)
    (e3 : ∀ t i, hdrStep b false t i { h1 with st := st2 } = hdrVal t b i kf)
    (e4 : (kf v).st = .sep) :
    ∃ iob', hdrLoop b (f + 4) first h ⟨iob, memberText key v r⟩ =
      hdrLoop b f false { kf v with st := .key } ⟨iob', r⟩ ∧ BufOk iob' b 64 := by
  have lv := intText_length hv
  obtain ⟨i1, t1, b1, s1⟩ := nextTok_string (r := 58 :: (intText v ++ 44 :: r)) hb (PlainKey.enc hk.2)
    (fun c hc => by have := hk.2 c hc; omega) hk.1
  obtain ⟨i2, t2, b2, s2⟩ := nextTok_num (c := 44) (r := r) b1 (intText_num v) (by omega) (by decide)
  refine ⟨i2, ?_, b2⟩
  rw [show f + 4 = (f + 3) + 1 by omega, memberText,
    hdrLoop_step (h' := h1) (by rw [hst]; simp) t1 (by simp [hdrStep, hst, s1, e1]),
    show f + 3 = (f + 2) + 1 by omega,
    hdrLoop_step (h' := { h1 with st := st2 }) n1 (nextTok_ch (by simp)) (by rw [e2]; simp [hdrSep]),
    show f + 2 = (f + 1) + 1 by omega,
    hdrLoop_step (h' := kf v) n2 t2 (by
      dsimp only
      rw [e3]; simp [hdrVal, s2, atoi_intText hv]),
    hdrLoop_step (h' := { kf v with st := .key }) (by rw [e4]; simp) (nextTok_ch (by simp))
      (by simp [hdrStep, e4, hdrSep])]

/-- Text behind the header. -/
def dataText (e r : List Int) : List Int := 34 :: (kData ++ 34 :: 58 :: 91 :: (e ++ 93 :: 125 :: r))

/-- The text `armas_json_write` produces. -/
def matText (rows cols flags : Int) (e r : List Int) : List Int :=
  123 :: memberText kRows rows (memberText kCols cols
    (if flags ≠ 0 then memberText kFlags flags (dataText e r) else dataText e r))

theorem plain_rows : PlainKey kRows := by unfold PlainKey; decide
theorem plain_cols : PlainKey kCols := by unfold PlainKey; decide
theorem plain_data : PlainKey kData := by unfold PlainKey; decide
theorem plain_flags : PlainKey kFlags := by unfold PlainKey; decide

theorem jsonWrite_text {fin : α → Bool} {fmt : α → List Int} {m : Mem α} {A : View} {flags : Int}
    {a : Nat → Nat → α} (hA : Holds m A a) :
    ∃ o, jsonWrite fin fmt m A flags = .ok o ∧ ∀ r, o ++ r = matText A.rows A.cols flags
      (restText (fun k => writeNum fin fmt (a (k % A.rows) (k / A.rows))) 0 (A.rows * A.cols)) r := by
  have er : writeString kRows kRows.length = .ok (34 :: (kRows ++ [34])) := by decide
  have ec : writeString kCols kCols.length = .ok (34 :: (kCols ++ [34])) := by decide
  have ef : writeString kFlags kFlags.length = .ok (34 :: (kFlags ++ [34])) := by decide
  have ed : writeString kData 4 = .ok (34 :: (kData ++ [34])) := by decide
  unfold jsonWrite
  rw [writeElems_text hA]
  simp only [writeMember, er, ec, ef, ed, Res.ok_bind]
  by_cases h : flags = 0
  · simp only [h, ne_eq, not_true_eq_false, if_false, Res.ok_bind]
    refine ⟨_, rfl, fun r => ?_⟩
    simp [matText, memberText, dataText]
  · simp only [ne_eq, h, not_false_eq_true, if_true, Res.ok_bind]
    refine ⟨_, rfl, fun r => ?_⟩
    simp [matText, memberText, dataText, h]

/-- Header after the members written. -/
theorem hdr_text {f : Nat} {rows cols flags : Int} {e r : List Int} (hb : BufOk iob b 64)
    (hr : IsInt rows) (hc : IsInt cols) (hf : IsInt flags) (hfuel : 16 ≤ f) :
    ∃ iob' h, hdrLoop b f true ⟨.key, 0, 0, 0, 0, false, false, false, false⟩
        ⟨iob, memberText kRows rows (memberText kCols cols
          (if flags ≠ 0 then memberText kFlags flags (dataText e r) else dataText e r))⟩ =
      .ok (.go h, ⟨iob', 91 :: (e ++ 93 :: 125 :: r)⟩) ∧ BufOk iob' b 64 ∧ h.hasRows = true ∧
      h.hasCols = true ∧ h.rows = rows ∧ h.cols = cols := by
  obtain ⟨f, rfl⟩ : ∃ g, f = g + 3 + 4 + 4 + 4 := ⟨f - 15, by omega⟩
  obtain ⟨i1, e1, b1⟩ := hdr_member (b := b) (f := f + 3 + 4 + 4) (first := true)
    (h := ⟨.key, 0, 0, 0, 0, false, false, false, false⟩)
    (r := memberText kCols cols
          (if flags ≠ 0 then memberText kFlags flags (dataText e r) else dataText e r))
    hb plain_rows hr rfl (h1 := ⟨.rowSep, 0, 0, 0, 0, false, false, false, false⟩) rfl (by simp)
    (st2 := .rowVal) (fun _ _ => rfl) (by simp) (fun _ _ => rfl) rfl
  obtain ⟨i2, e2, b2⟩ := hdr_member (b := b) (f := f + 3 + 4) (first := false)
    (h := ⟨.key, rows, 0, 0, 0, true, false, false, false⟩)
    (r := (if flags ≠ 0 then memberText kFlags flags (dataText e r) else dataText e r))
    b1 plain_cols hc rfl (h1 := ⟨.colSep, rows, 0, 0, 0, true, false, false, false⟩) rfl (by simp)
    (st2 := .colVal) (fun _ _ => rfl) (by simp) (fun _ _ => rfl) rfl
  -- the data key
  have D : ∀ (g : Nat) (i3 : Mem Int) (h : Hdr), BufOk i3 b 64 → h.st = .key →
      ∃ iob', hdrLoop b (g + 3) false h ⟨i3, dataText e r⟩ =
        .ok (.go { h with st := .dtaVal }, ⟨iob', 91 :: (e ++ 93 :: 125 :: r)⟩) ∧ BufOk iob' b 64 := by
    intro g i3 h b3 hst
    obtain ⟨i4, t4, b4, s4⟩ := nextTok_string (r := 58 :: 91 :: (e ++ 93 :: 125 :: r)) b3
      (PlainKey.enc plain_data.2) (fun c hc => by have := plain_data.2 c hc; omega) plain_data.1
    refine ⟨i4, ?_, b4⟩
    have ek : hdrKey kData h = .go { h with st := .dtaSep } := by
      simp only [hdrKey]
      rw [if_neg (by decide), if_neg (by decide), if_pos (by decide)]
    rw [show g + 3 = (g + 2) + 1 by omega, dataText,
      hdrLoop_step (h' := { h with st := .dtaSep }) (by rw [hst]; simp) t4 (by
        simp [hdrStep, hst, s4, ek]),
      show g + 2 = (g + 1) + 1 by omega,
      hdrLoop_step (h' := { h with st := .dtaVal }) (by simp) (nextTok_ch (by simp)) (by
        simp [hdrStep, hdrSep]), hdrLoop, if_pos rfl]
  rw [e1, e2]
  by_cases hfl : flags = 0
  · rw [if_neg (by simp [hfl]), show f + 3 + 4 = (f + 4) + 3 by omega]
    obtain ⟨i5, e5, b5⟩ := D (f + 4) i2 ⟨.key, rows, cols, 0, 0, true, true, false, false⟩ b2 rfl
    exact ⟨i5, _, e5, b5, rfl, rfl, rfl, rfl⟩
  · obtain ⟨i3, e3, b3⟩ := hdr_member (b := b) (f := f + 3) (first := false)
      (h := ⟨.key, rows, cols, 0, 0, true, true, false, false⟩) (r := dataText e r)
      b2 plain_flags hf rfl (h1 := ⟨.flgSep, rows, cols, 0, 0, true, true, false, false⟩) rfl (by simp)
      (st2 := .flgVal) (fun _ _ => rfl) (by simp) (fun _ _ => rfl) rfl
    obtain ⟨i5, e5, b5⟩ := D f i3 ⟨.key, rows, cols, 0, flags, true, true, false, true⟩ b3 rfl
    rw [if_pos hfl]
    exact ⟨i5, _, e3.trans e5, b5, rfl, rfl, rfl, rfl⟩

theorem jsonRead_text [Zero α] {scan : List Int → α} {f : Nat → List Int} {a : Nat → Nat → α}
    {fuel ab rows cols : Nat} {flags : Int} {r : List Int} (hb : BufOk iob b 64) (hfuel : 16 ≤ fuel)
    (hr : IsInt rows) (hc : IsInt cols) (hfl : IsInt flags) (hrc : IsInt ((rows * cols : Nat) : Int))
    (hf : ReadsAs scan f (fun k => a (k % rows) (k / rows)) (rows * cols)) :
    ∃ A' m', jsonRead scan fuel iob b ab (matText rows cols flags (restText f 0 (rows * cols)) r) =
      .ok (.mat A' m', r) ∧ A'.rows = rows ∧ A'.cols = cols ∧ A'.WF ∧ Holds m' A' a := by
  obtain ⟨i1, h, e1, b1, r1, r2, r3, r4⟩ := hdr_text (f := fuel) (e := restText f 0 (rows * cols)) (r := r)
    hb hr hc hfl hfuel
  -- the new matrix
  obtain ⟨A, m, eA, a1, a2, a3, a4, a5, a6⟩ : ∃ (A : View) (m : Mem α), initDense ab (rows : Int) (cols : Int) = .ok (A, m) ∧
      A.rows = rows ∧ A.cols = cols ∧ A.base = ab ∧ A.WF ∧ (rows * cols = 0 ∨ A.step = rows) ∧
      ∀ l, l < rows * cols → ∃ w, m (ab + l) = some w := by
    unfold initDense
    by_cases h0 : (rows : Int) ≤ 0 ∨ (cols : Int) ≤ 0
    · rw [if_pos h0]
      have hz : rows = 0 ∨ cols = 0 := by omega
      refine ⟨_, _, rfl, by simp, by simp, rfl, ?_, Or.inl ?_, fun l hl => ?_⟩
      · rcases hz with h | h
        · exact Or.inl (by simp [h])
        · exact Or.inr (by simp [h])
      · rcases hz with h | h <;> simp [h]
      · rcases hz with h | h <;> simp [h] at hl
    · rw [if_neg h0, if_pos (by have := hrc.2; push_cast at this; exact this)]
      refine ⟨_, _, rfl, by simp, by simp, rfl, Or.inl (by simp), Or.inr (by simp), fun l hl => ⟨0, ?_⟩⟩
      rw [if_pos]
      simp only [Int.toNat_natCast]
      omega
  obtain ⟨i2, m2, e2, b2, v2⟩ := readData_text (scan := scan) (f := f) (v := fun k => a (k % rows) (k / rows))
    (fuel := fuel) (rest := 125 :: r) (A := A) (m := m) (iob := i1) (b := b) (by rw [a1, a2]; exact hf)
    (by rw [a1, a2]; exact a5) b1 (by rw [a1, a2, a3]; exact a6)
  rw [a1, a2] at e2 v2
  refine ⟨A, m2, ?_, a1, a2, a4, ?_⟩
  · unfold jsonRead
    rw [matText, nextTok_ch (by simp)]
    simp only [Res.ok_bind]
    rw [if_neg (by simp), if_neg (by simp), e1]
    simp only [Res.ok_bind]
    unfold jsonBody
    rw [if_neg (by simp [r1, r2]), nextTok_ch (by simp)]
    simp only [Res.ok_bind]
    rw [if_neg (by simp), r3, r4, eA]
    simp only [Res.ok_bind]
    rw [e2]
    simp only [Res.ok_bind]
    rw [nextTok_ch (by simp)]
    simp only [Res.ok_bind]
    rw [if_neg (by simp), nextTok_ch (by simp)]
    simp
  · intro i j hi hj
    rw [a1] at hi
    rw [a2] at hj
    have hlt : rows * j + i < rows * cols := by
      have : rows * j + rows ≤ rows * cols := by
        rw [← Nat.mul_succ]; exact Nat.mul_le_mul_left _ hj
      omega
    have := v2 (rows * j + i) hlt
    have e1 : (rows * j + i) % rows = i := by rw [Nat.mul_add_mod, Nat.mod_eq_of_lt hi]
    have e2 : (rows * j + i) / rows = j := by
      rw [Nat.mul_add_div (by omega), Nat.div_eq_of_lt hi, Nat.add_zero]
    rw [e1, e2] at this
    rw [← this]
    have hs : A.step = rows := by
      rcases a5 with h | h
      · omega
      · exact h
    simp only [View.at', hs]
    rw [Nat.mul_comm rows j]; congr 1; omega

/-! ## Documents in coordinate format -/

/-- `armas_json_read_data` on a list of coordinates. -/
theorem readData_coord {scan : List Int → α} {fmt : α → List Int} {fuel : Nat} {A : View} {m : Mem α}
    {rest : List Int} {P : Int × Int × α → Mem α → Mem α} {ts : List (Int × Int × α)}
    (hA : 0 < A.rows ∧ 0 < A.cols) (hb : BufOk iob b 64) (hts : ts ≠ []) (hfuel : ts.length ≤ fuel)
    (ht : ∀ t ∈ ts, IsInt t.1 ∧ IsInt t.2.1 ∧ JNum (fmt t.2.2) ∧ (fmt t.2.2).length ≤ 62 ∧
      scan (fmt t.2.2) = t.2.2)
    (hP : ∀ t ∈ ts, ∀ m', (∀ p, (m' p).isSome = (m p).isSome) →
      coordSet m' A t.1 t.2.1 t.2.2 = .ok (P t m') ∧ ∀ p, (P t m' p).isSome = (m' p).isSome) :
    ∃ iob', readData scan fuel b 64 A m ⟨iob, tripsText fmt ts ++ 93 :: rest⟩ =
      .ok (some ts.length, ts.foldl (fun m t => P t m) m, ⟨iob', 93 :: rest⟩) ∧ BufOk iob' b 64 := by
  obtain ⟨i1, e1, b1⟩ := readCoordData_text (b := b) (scan := scan) (A := A) (rest := rest) (P := P) ts
    (fuel := fuel) (cnt := 0) (m := m) (iob := iob) hts hfuel hb ht hP
  refine ⟨i1, ?_, b1⟩
  obtain ⟨r0, er⟩ : ∃ r0, tripsText fmt ts ++ 93 :: rest = 91 :: r0 := by
    cases ts with
    | nil => exact absurd rfl hts
    | cons t ts =>
      cases ts with
      | nil => exact ⟨_, rfl⟩
      | cons t' ts => exact ⟨_, rfl⟩
  rw [er] at e1 ⊢
  rw [Nat.zero_add] at e1
  set M := ts.foldl (fun m t => P t m) m
  set d1 : DatS α := ⟨0, M, ⟨i1, 93 :: rest⟩, some (some ts.length)⟩ with hd1
  set d0 : DatS α := ⟨0, m, ⟨iob, 91 :: r0⟩, none⟩ with hd0
  have first : readElem scan fuel b 64 A 0 0 d0 = .ok d1 := by
    unfold readElem
    rw [hd0]
    dsimp only
    rw [nextTok_ch (by simp)]
    simp only [Res.ok_bind]
    rw [if_pos (by simp), if_pos (by simp), e1]
    rfl
  have key : Runs (readData scan fuel b 64 A m ⟨iob, 91 :: r0⟩)
      (fun r => r = (some ts.length, M, ⟨i1, 93 :: rest⟩)) := by
    unfold readData
    refine Runs.bind (P := fun r => r.2 = d1) ?_ ?_
    · refine Runs.forUp1 (fun j d => if j = 0 then d = d0 else d = d1)
        (Nat.zero_le _) (by rw [if_pos rfl]) ?_ (fun d h => ?_)
      · intro j d _ hj hd
        refine Runs.bind (P := fun r => r.2 = d1) ?_ (fun r hr => Runs.ok (by simpa using hr))
        by_cases hj0 : j = 0
        · rw [if_pos hj0] at hd
          subst hj0
          refine Runs.forUp1 (fun i d => if i = 0 then d = d0 else d = d1)
            (Nat.zero_le _) (by rw [if_pos rfl]; exact hd) ?_ (fun d h => ?_)
          · intro i d _ hi hd
            by_cases hi0 : i = 0
            · rw [if_pos hi0] at hd
              subst hi0
              rw [hd]
              have es : d0.stop.isSome = false := rfl
              have en : readSep b 64 d0 = .ok d0 := rfl
              simp only [es, Bool.false_eq_true, if_false]
              rw [en]
              simp only [Res.ok_bind, es, Bool.false_eq_true, if_false]
              rw [first]
              exact Runs.ok (by simp)
            · rw [if_neg hi0] at hd
              subst hd
              exact Runs.ok (by simp)
          · rwa [if_neg (by omega)] at h
        · rw [if_neg hj0] at hd
          refine Runs.forUp1 (fun i d => d = d1) (Nat.zero_le _) hd ?_ (fun d h => h)
          intro i d _ hi hd
          subst hd
          exact Runs.ok rfl
      · rwa [if_neg (by omega)] at h
    · rintro ⟨_, d⟩ hd
      dsimp only at hd
      subst hd
      exact Runs.ok rfl
  obtain ⟨r, e, rfl⟩ := key
  exact e

/-- Value of element (i,j) after the triplets `ts`: the last triplet for (i,j), or zero. -/
def placed [Zero α] (ts : List (Int × Int × α)) : Nat → Nat → α :=
  ts.foldl (fun g t => fun i j => if t.1 = (i : Int) ∧ t.2.1 = (j : Int) then t.2.2 else g i j) (fun _ _ => 0)

theorem jsonRead_coord [Zero α] {scan : List Int → α} {fmt : α → List Int}
    {fuel ab rows cols : Nat} {r : List Int} {ts : List (Int × Int × α)}
    (hb : BufOk iob b 64) (hfuel : 16 ≤ fuel) (hfuel' : ts.length ≤ fuel) (hrp : 0 < rows) (hcp : 0 < cols)
    (hr : IsInt rows) (hc : IsInt cols) (hrc : IsInt ((rows * cols : Nat) : Int)) (hts : ts ≠ [])
    (ht : ∀ t ∈ ts, IsInt t.1 ∧ IsInt t.2.1 ∧ JNum (fmt t.2.2) ∧ (fmt t.2.2).length ≤ 62 ∧
      scan (fmt t.2.2) = t.2.2)
    (hin : ∀ t ∈ ts, t.1 ≠ rows ∧ t.2.1 ≠ cols) :
    ∃ A' m', jsonRead scan fuel iob b ab (matText rows cols 0 (tripsText fmt ts) r) =
      .ok (.mat A' m', r) ∧ A'.rows = rows ∧ A'.cols = cols ∧ A'.WF ∧ Holds m' A' (placed ts) := by
  obtain ⟨i1, h, e1, b1, r1, r2, r3, r4⟩ := hdr_text (f := fuel) (e := tripsText fmt ts) (r := r)
    hb hr hc (flags := 0) (by unfold IsInt; omega) hfuel
  set A : View := ⟨ab, rows, rows, cols⟩ with hA
  set m : Mem α := fun p => if ab ≤ p ∧ p < ab + rows * cols then some 0 else none with hm
  have eA : initDense (α := α) ab (rows : Int) (cols : Int) = .ok (A, m) := by
    unfold initDense
    rw [if_neg (by omega), if_pos (by have := hrc.2; push_cast at this; exact this)]
    simp [hA, hm]
  have hat : ∀ i j, i < rows → j < cols → A.at' i j < ab + rows * cols ∧ ab ≤ A.at' i j := by
    intro i j hi hj
    have : rows * j + rows ≤ rows * cols := by
      rw [← Nat.mul_succ]; exact Nat.mul_le_mul_left _ hj
    simp only [View.at', hA]
    rw [Nat.mul_comm j rows]; omega
  have hw : A.WF := Or.inl (le_refl _)
  have inj : ∀ {i j i' j' : Nat}, i < rows → i' < rows → A.at' i j = A.at' i' j' → i = i' ∧ j = j' := by
    intro i j i' j' hi hi' e
    simp only [View.at', hA] at e
    have e' : rows * j + i = rows * j' + i' := by
      rw [Nat.mul_comm rows j, Nat.mul_comm rows j']; omega
    have a1 := congrArg (· % rows) e'
    have a2 := congrArg (· / rows) e'
    simp only [Nat.mul_add_mod, Nat.mod_eq_of_lt hi, Nat.mod_eq_of_lt hi'] at a1
    simp only [Nat.mul_add_div hrp, Nat.div_eq_of_lt hi, Nat.div_eq_of_lt hi', Nat.add_zero] at a2
    exact ⟨a1, a2⟩
  let P : Int × Int × α → Mem α → Mem α := fun t m =>
    if 0 ≤ t.1 ∧ t.1 ≤ rows ∧ 0 ≤ t.2.1 ∧ t.2.1 ≤ cols then m.set (A.at' t.1.toNat t.2.1.toNat) t.2.2 else m
  have hP : ∀ t ∈ ts, ∀ m', (∀ p, (m' p).isSome = (m p).isSome) →
      coordSet m' A t.1 t.2.1 t.2.2 = .ok (P t m') ∧ ∀ p, (P t m' p).isSome = (m' p).isSome := by
    intro t htm m' hm'
    have := hin t htm
    unfold coordSet
    by_cases c : 0 ≤ t.1 ∧ t.1 ≤ (rows : Int) ∧ 0 ≤ t.2.1 ∧ t.2.1 ≤ (cols : Int)
    · have hp := hat t.1.toNat t.2.1.toNat (by omega) (by omega)
      have hs : (m' (A.at' t.1.toNat t.2.1.toNat)).isSome = true := by
        rw [hm', hm]
        simp [hp.1, hp.2]
      obtain ⟨w, hw⟩ := Option.isSome_iff_exists.1 hs
      simp only [P]
      rw [if_pos c, if_pos c, wr_ok hw]
      refine ⟨rfl, fun p => ?_⟩
      by_cases e : p = A.at' t.1.toNat t.2.1.toNat
      · rw [e, hw]; simp
      · rw [Mem.set_ne _ _ e]
    · simp only [P]
      rw [if_neg c, if_neg c]
      exact ⟨rfl, fun _ => rfl⟩
  obtain ⟨i2, e2, b2⟩ := readData_coord (scan := scan) (fuel := fuel) (A := A) (m := m) (rest := 125 :: r)
    (P := P) (iob := i1) ⟨hrp, hcp⟩ b1 hts hfuel' ht hP
  refine ⟨A, ts.foldl (fun m t => P t m) m, ?_, rfl, rfl, hw, ?_⟩
  · unfold jsonRead
    rw [matText, nextTok_ch (by simp)]
    simp only [Res.ok_bind]
    rw [if_neg (by simp), if_neg (by simp), e1]
    simp only [Res.ok_bind]
    unfold jsonBody
    rw [if_neg (by simp [r1, r2]), nextTok_ch (by simp)]
    simp only [Res.ok_bind]
    rw [if_neg (by simp), r3, r4, eA]
    simp only [Res.ok_bind]
    rw [e2]
    simp only [Res.ok_bind]
    rw [nextTok_ch (by simp)]
    simp only [Res.ok_bind]
    rw [if_neg (by simp), nextTok_ch (by simp)]
    simp
  · have key : ∀ (l : List (Int × Int × α)) (m' : Mem α) (g : Nat → Nat → α),
        (∀ t ∈ l, t.1 ≠ rows ∧ t.2.1 ≠ cols) → Holds m' A g →
        Holds (l.foldl (fun m t => P t m) m') A
          (l.foldl (fun g t => fun i j => if t.1 = (i : Int) ∧ t.2.1 = (j : Int) then t.2.2 else g i j) g) := by
      intro l
      induction l with
      | nil => intro m' g _ h; exact h
      | cons t l ih =>
        intro m' g hl hg
        rw [List.foldl_cons, List.foldl_cons]
        refine ih _ _ (fun t ht => hl t (by simp [ht])) ?_
        intro i j hi hj
        have ht := hl t (by simp)
        simp only [P]
        have hi' : i < rows := hi
        have hj' : j < cols := hj
        by_cases c : t.1 = i ∧ t.2.1 = j
        · rw [if_pos c, if_pos (by omega), c.1, c.2]
          simp
        · rw [if_neg c]
          split
          · rename_i c'
            rw [Mem.set_ne]
            · exact hg i j hi hj
            · intro e
              have := inj hi' (by omega) e
              omega
          · exact hg i j hi hj
    refine key ts m _ hin ?_
    intro i j hi hj
    have := hat i j hi hj
    simp [hm, this.1, this.2]

end Armas
