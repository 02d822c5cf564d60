import Verif.CacheLemmas
import Verif.Props.Gemm

/-!
# C25: environment configuration and cache split

`p` is the element size in bytes (8 for `double`, 4 for `float`).
-/

namespace Armas.Props

open Armas

/-- C25, first part: whatever text is in `ARMAS_CONFIG` and `ARMAS_CACHE`, and whatever numbers the
C library makes of it, all block sizes and thresholds are positive, the cache has at least 4096 bytes
and the L1 size is at least 1024. -/
theorem C25_env_positive (lc : Libc) (config cache : Option (List Char)) :
    let e := readEnvironment lc config cache
    0 < e.mb ∧ 0 < e.nb ∧ 0 < e.kb ∧ 0 < e.lb ∧ 0 < e.blas1min ∧ 0 < e.blas2min ∧
      4096 ≤ e.cmem ∧ 1024 ≤ e.l1mem := by
  unfold readEnvironment
  have h1 : EnvConf.Good (match config with
      | none => EnvConf.default
      | some s => eachTok (confTok lc) 0 (s.splitOn ',') EnvConf.default) := by
    cases config with
    | none => exact default_good
    | some s => exact eachTok_good (fun n t e => confTok_good lc n t) _ _ _ default_good
  cases cache with
  | none => exact h1
  | some s => exact eachTok_good (fun n t e => cacheTok_good lc n t) _ _ _ h1

/-- A text with an empty, a negative and a huge entry. -/
example := C25_env_positive ⟨fun t => if t = ['-', '3'] then -3 else t.length, fun _ => (17, some 'K')⟩
  (some ",-3,99999999999".toList) (some "17K".toList)

/-- C25, second part: the blocks of the two way split always fit to the buffer: `(MB+NB)*KB`
elements are not more than there are in `len` bytes. -/
theorem C25_split2_fits {cb : CBuf} {mb nb kb p : Nat} {c : Cache} (hl : 1024 < cb.len) (hk : 0 < kb)
    (hn : 0 < nb) (h : setup2 cb mb nb kb p = .ok c) : (c.MB + c.NB) * c.KB ≤ cb.len / p := by
  unfold setup2 at h
  have := split2_fits (mb := mb) (p := p) hl hk hn
  cases hr : setupRb cb.l1mem (split2 cb mb nb kb p).2.2 (split2 cb mb nb kb p).1 p with
  | ok rb =>
    simp only [hr, Res.ok_bind] at h
    cases h
    exact this
  | ub => simp [hr] at h
  | diverge => simp [hr] at h

/-- The default settings. -/
example := C25_split2_fits (cb := cbufMake 1000 262144 32768) (mb := 64) (nb := 64) (kb := 160) (p := 8)
  (c := ⟨128, 16128, 200, 200, 80, 80, 20⟩) (by decide) (by decide) (by decide) (by
    have h : Nat.sqrt 40956 = 202 := by symm; rw [Nat.eq_sqrt]; omega
    simp [setup2, split2, cbufMake, alignSkip, h, mask4, setupRb])

/-- C25, third part: if the split has non-zero blocks (`MB`, `NB`) and a block height that is at least
a cache line, then both buffers lie inside the cache memory, do not overlap, and the blocked
multiplication can use them (`Cache.Ready`, the hypothesis of C16).
Missing: splits with an empty block or with `KB*p < 64`; those exist for accepted settings and the
claim is false for them (below). -/
theorem C25_setup2_ready_partial {α : Type} {m : Mem α} {cb : CBuf} {mb nb kb p : Nat} (hp : 0 < p)
    (hp' : p ≤ 64) (hl : 1024 < cb.len) (hk : 0 < kb) (hn : 0 < nb)
    (hm : ∀ q, cb.data / p ≤ q → q < cb.data / p + cb.len / p → ∃ v, m q = some v)
    (hM : 0 < (split2 cb mb nb kb p).1) (hN : 0 < (split2 cb mb nb kb p).2.1)
    (hK : 64 / p ≤ (split2 cb mb nb kb p).2.2) :
    ∃ c, setup2 cb mb nb kb p = .ok c ∧ c.Ready m ∧
      (∀ q ∈ c.foot, cb.data / p ≤ q ∧ q < cb.data / p + cb.len / p) ∧
      c.MB = (split2 cb mb nb kb p).1 ∧ c.NB = (split2 cb mb nb kb p).2.1 ∧
      c.KB = (split2 cb mb nb kb p).2.2 := by
  have h64 : 1 ≤ 64 / p := (Nat.le_div_iff_mul_le hp).mpr (by omega)
  obtain ⟨rb, e, h1, h2⟩ := setupRb_ok (l1mem := cb.l1mem) (KB := (split2 cb mb nb kb p).2.2)
    (MB := (split2 cb mb nb kb p).1) (p := p) (by omega) hp hM
  refine ⟨⟨cb.data / p, cb.data / p + (split2 cb mb nb kb p).1 * (split2 cb mb nb kb p).2.2,
    (split2 cb mb nb kb p).2.2, (split2 cb mb nb kb p).2.2, (split2 cb mb nb kb p).2.1,
    (split2 cb mb nb kb p).1, rb⟩, ?_, ?_⟩
  · unfold setup2
    simp only [e, Res.ok_bind, if_neg (show ¬ (split2 cb mb nb kb p).2.2 < 64 / p by omega)]
    rfl
  · exact and_assoc.mp ⟨Cache.ready_of_range (by dsimp only; omega) hN hM h1 rfl rfl rfl
      (split2_fits hl hk hn) hm, rfl, rfl, rfl⟩

/-- Default settings. -/
example := C25_setup2_ready_partial (α := ℤ) (m := tot (fun p => (p : ℤ)))
  (cb := cbufMake 1000 262144 32768) (mb := 64) (nb := 64) (kb := 160) (p := 8) (by decide) (by decide)
  (by decide) (by decide) (by decide) (fun q _ _ => ⟨_, rfl⟩)
  (by have h : Nat.sqrt 40956 = 202 := by symm; rw [Nat.eq_sqrt]; omega
      simp [split2, cbufMake, alignSkip, h, mask4])
  (by have h : Nat.sqrt 40956 = 202 := by symm; rw [Nat.eq_sqrt]; omega
      simp [split2, cbufMake, alignSkip, h, mask4])
  (by have h : Nat.sqrt 40956 = 202 := by symm; rw [Nat.eq_sqrt]; omega
      simp [split2, cbufMake, alignSkip, h])

/-- C25: a condition on the settings that guarantees it: there is a multiple `L` of the cache line
with `L^2*(mb+nb) ≤ kb*S` that leaves at least `N ≥ 4` columns, and four rows. -/
theorem C25_setup2_settings_partial {α : Type} {m : Mem α} {cb : CBuf} {mb nb kb p : Nat} (hp : 0 < p)
    (hp' : p ≤ 64) (hl : 1024 < cb.len) (hk : 0 < kb) (hn : 0 < nb)
    (hm : ∀ q, cb.data / p ≤ q → q < cb.data / p + cb.len / p → ∃ v, m q = some v)
    {L N : Nat} (hL : 0 < L) (hLd : 64 / p ∣ L) (hLS : L * L * (mb + nb) ≤ kb * (cb.len / p))
    (hN4 : 4 ≤ N) (hN : N * kb ≤ L * nb) (hM4 : 4 * nb ≤ N * mb) :
    ∃ c, setup2 cb mb nb kb p = .ok c ∧ c.Ready m ∧
      ∀ q ∈ c.foot, cb.data / p ≤ q ∧ q < cb.data / p + cb.len / p := by
  have h64 : 1 ≤ 64 / p := (Nat.le_div_iff_mul_le hp).mpr (by omega)
  have hLc : 64 / p ≤ L := Nat.le_of_dvd hL hLd
  have hsq : L ≤ Nat.sqrt (kb * (cb.len / p) / (mb + nb)) := by
    rw [Nat.le_sqrt]
    exact (Nat.le_div_iff_mul_le (by omega)).mpr hLS
  have key : ∀ K, L ≤ K → L ≤ (if K > 64 / p then K - K % (64 / p) else K) := by
    intro K hLK
    split
    · obtain ⟨d, rfl⟩ := hLd
      have h1 : K - K % (64 / p) = 64 / p * (K / (64 / p)) := by
        have := Nat.div_add_mod K (64 / p); omega
      rw [h1]
      exact Nat.mul_le_mul_left _ ((Nat.le_div_iff_mul_le (by omega)).mpr (by rw [mul_comm]; exact hLK))
    · exact hLK
  have hkn := key _ hsq
  have hsplit : 4 ≤ (split2 cb mb nb kb p).1 ∧ 4 ≤ (split2 cb mb nb kb p).2.1 ∧
      L ≤ (split2 cb mb nb kb p).2.2 := by
    unfold split2
    rw [if_neg (by omega)]
    dsimp only
    generalize (if Nat.sqrt (kb * (cb.len / p) / (mb + nb)) > 64 / p then _ else _) = K at hkn
    have hnn : N ≤ K * nb / kb :=
      (Nat.le_div_iff_mul_le hk).mpr (le_trans hN (Nat.mul_le_mul_right _ hkn))
    have hmm : 4 ≤ K * nb / kb * mb / nb :=
      (Nat.le_div_iff_mul_le hn).mpr (le_trans hM4 (Nat.mul_le_mul_right _ hnn))
    exact ⟨mask4_pos hmm, mask4_pos (by omega), hkn⟩
  obtain ⟨c, h1, h2, h3, -⟩ := C25_setup2_ready_partial (mb := mb) hp hp' hl hk hn hm (by omega)
    (by omega) (by omega)
  exact ⟨c, h1, h2, h3⟩

/-- The default settings for `double`. -/
example := C25_setup2_settings_partial (α := ℤ) (m := tot (fun p => (p : ℤ)))
  (cb := cbufMake 1000 262144 32768) (mb := 64) (nb := 64) (kb := 160) (p := 8) (by decide) (by decide)
  (by decide) (by decide) (by decide) (fun q _ _ => ⟨_, rfl⟩) (L := 160) (N := 64) (by decide) (by decide)
  (by decide) (by decide) (by decide) (by decide)

/-- The settings for a small cache and `float`, blocks for `float` and 4096 bytes. -/
example := C25_setup2_settings_partial (α := ℤ) (m := tot (fun p => (p : ℤ)))
  (cb := cbufMake 1000 4096 1024) (mb := 64) (nb := 64) (kb := 64) (p := 4) (by decide) (by decide)
  (by decide) (by decide) (by decide) (fun q _ _ => ⟨_, rfl⟩) (L := 16) (N := 16) (by decide) (by decide)
  (by decide) (by decide) (by decide) (by decide)

/-- The three way split also fits: `(MB+2*NB)*KB` elements. -/
theorem C25_split3_fits {cb : CBuf} {mb nb kb p : Nat} {c : Cache3} (hl : 1024 < cb.len) (hk : 0 < kb)
    (hn : 0 < nb) (h : setup3 cb mb nb kb p = .ok c) :
    (c.c.MB + 2 * c.c.NB) * c.c.KB ≤ cb.len / p ∧ c.dC = cb.data / p + (c.c.MB + c.c.NB) * c.c.KB := by
  unfold setup3 at h
  have := split3_fits (mb := mb) (p := p) hl hk hn
  cases hr : setupRb cb.l1mem (split3 cb mb nb kb p).2.2 (split3 cb mb nb kb p).1 p with
  | ok rb =>
    simp only [hr, Res.ok_bind] at h
    cases h
    exact ⟨this, rfl⟩
  | ub => simp [hr] at h
  | diverge => simp [hr] at h

/-- The default settings. -/
example := C25_split3_fits (cb := cbufMake 1000 262144 32768) (mb := 64) (nb := 64) (kb := 160) (p := 8)
  (c := ⟨⟨128, 10368, 160, 160, 64, 64, 24⟩, 20608⟩) (by decide) (by decide) (by decide) (by
    have h : Nat.sqrt 27304 = 165 := by symm; rw [Nat.eq_sqrt]; omega
    simp [setup3, split3, cbufMake, alignSkip, h, mask4, setupRb])

/-! ### The claim is false for some accepted settings -/

/-- The settings that result from a text of three numbers, with the default cache size. -/
theorem read3 (lc : Libc) {s t1 t2 t3 : List Char} {a b c : Int} (hs : s.splitOn ',' = [t1, t2, t3])
    (h1 : lc.atoi t1 = a) (h2 : lc.atoi t2 = b) (h3 : lc.atoi t3 = c) (ha : 0 < a) (hb : 0 < b)
    (hc : 0 < c) : readEnvironment lc (some s) none = ⟨a, b, c, 64, 1024, 256, 262144, 32768, false⟩ := by
  unfold readEnvironment
  simp only [hs, eachTok, confTok, h1, h2, h3, gt_iff_lt, ha, hb, hc, if_true, EnvConf.default]

theorem skip_bounds (buf : Nat) : 1 ≤ alignSkip buf ∧ alignSkip buf ≤ 64 := by
  unfold alignSkip; omega

theorem mod_le (buf : Nat) : 32760 ≤ (262144 - alignSkip buf) / 8 ∧
    (262144 - alignSkip buf) / 8 ≤ 32767 := by
  have := skip_bounds buf; omega

/-- C25: `ARMAS_CONFIG="1000,1,1000"` makes `NB = 0`, and then `armas_mult` never returns for any
nonempty operands and `alpha ≠ 0`. -/
theorem C25_zero_block_false {α : Type} [CommRing α] [DecidableEq α] (ab : α → α) (lc : Libc)
    (h1000 : lc.atoi "1000".toList = 1000) (h1 : lc.atoi "1".toList = 1) (buf : Nat) :
    let e := readEnvironment lc (some "1000,1,1000".toList) none
    (∃ c, setup2 (cbufMake buf e.cmem e.l1mem) e.mb.toNat e.nb.toNat e.kb.toNat 8 = .ok c ∧ c.NB = 0) ∧
    ∀ (m : Mem α) (beta : α) (C : View) (alpha : α) (A B : View) (fl : Flags), alpha ≠ 0 →
      A.size ≠ 0 ∧ B.size ≠ 0 ∧ C.size ≠ 0 → multSizes C A B fl →
      multEnv ab e buf 8 m beta C alpha A B fl = .diverge := by
  have e := read3 lc (s := "1000,1,1000".toList) (t1 := "1000".toList) (t2 := "1".toList)
    (t3 := "1000".toList) (by decide) h1000 h1 h1000 (by decide) (by decide) (by decide)
  rw [e]
  dsimp only
  have hS := mod_le buf
  have hsk := skip_bounds buf
  have hsq : Nat.sqrt (1000 * ((262144 - alignSkip buf) / 8) / 1001) = 180 := by
    symm; rw [Nat.eq_sqrt]; omega
  have hc : ∃ c, setup2 (cbufMake buf 262144 32768) (1000 : Int).toNat (1 : Int).toNat (1000 : Int).toNat 8
      = .ok c ∧ c.NB = 0 := by
    unfold setup2 split2 cbufMake
    dsimp only
    rw [if_neg (by omega)]
    simp only [show (1000 : Int).toNat = 1000 from rfl, show (1 : Int).toNat = 1 from rfl,
      show 1000 + 1 = 1001 from rfl, hsq]
    exact ⟨_, rfl, rfl⟩
  refine ⟨hc, ?_⟩
  intro m beta C alpha A B fl ha h0 hs
  obtain ⟨c, e1, e2⟩ := hc
  unfold multEnv
  rw [if_neg (by omega), if_neg (by simp [hs]), e1, Res.ok_bind]
  exact C16_zero_block_false ab beta alpha ha e2 h0 hs

example := C25_zero_block_false (α := ℤ) id
  ⟨fun t => if t = "1000".toList then 1000 else 1, fun _ => (0, none)⟩ rfl rfl 12345

/-- C25: `ARMAS_CONFIG="1000000,1,1"` makes `KB = 0`; `armas_cache_setup2` then divides by zero, so
every multiplication of nonempty operands has undefined behaviour. -/
theorem C25_zero_kb_false {α : Type} [CommRing α] [DecidableEq α] (ab : α → α) (lc : Libc)
    (h1000 : lc.atoi "1000000".toList = 1000000) (h1 : lc.atoi "1".toList = 1) (buf : Nat) :
    let e := readEnvironment lc (some "1000000,1,1".toList) none
    ∀ (m : Mem α) (beta : α) (C : View) (alpha : α) (A B : View) (fl : Flags),
      A.size ≠ 0 ∧ B.size ≠ 0 ∧ C.size ≠ 0 → multSizes C A B fl →
      multEnv ab e buf 8 m beta C alpha A B fl = .ub := by
  have e := read3 lc (s := "1000000,1,1".toList) (t1 := "1000000".toList) (t2 := "1".toList)
    (t3 := "1".toList) (by decide) h1000 h1 h1 (by decide) (by decide) (by decide)
  rw [e]
  dsimp only
  intro m beta C alpha A B fl h0 hs
  have hS := mod_le buf
  have hsk := skip_bounds buf
  have hsq : 1 * ((262144 - alignSkip buf) / 8) / 1000001 = 0 := by omega
  unfold multEnv
  rw [if_neg (by omega), if_neg (by simp [hs])]
  unfold setup2 split2 cbufMake
  dsimp only
  rw [if_neg (by omega)]
  simp only [show (1000000 : Int).toNat = 1000000 from rfl, show (1 : Int).toNat = 1 from rfl,
      show 1000000 + 1 = 1000001 from rfl, hsq, Nat.sqrt_zero]
  rfl

example := C25_zero_kb_false (α := ℤ) id
  ⟨fun t => if t = "1000000".toList then 1000000 else 1, fun _ => (0, none)⟩ rfl rfl 12345

/-- C25: `ARMAS_CONFIG="1000,1000,1"` gives `KB = 4` but a column stride of 8 elements, while the
start of the second buffer is computed with stride 4: the two buffers overlap, and the second one
extends past the end of the cache memory. -/
theorem C25_overlap_false (lc : Libc)
    (h1000 : lc.atoi "1000".toList = 1000) (h1 : lc.atoi "1".toList = 1) (buf : Nat) :
    let e := readEnvironment lc (some "1000,1000,1".toList) none
    let cb := cbufMake buf e.cmem e.l1mem
    ∃ c, setup2 cb e.mb.toNat e.nb.toNat e.kb.toNat 8 = .ok c ∧
      ¬ Disjoint (c.A c.KB c.MB).foot (c.B c.KB c.NB).foot ∧
      ∃ q ∈ (c.B c.KB c.NB).foot, cb.data / 8 + cb.len / 8 ≤ q := by
  have e := read3 lc (s := "1000,1000,1".toList) (t1 := "1000".toList) (t2 := "1000".toList)
    (t3 := "1".toList) (by decide) h1000 h1000 h1 (by decide) (by decide) (by decide)
  rw [e]
  have hS := mod_le buf
  have hsk := skip_bounds buf
  have hsq : Nat.sqrt (1 * ((262144 - alignSkip buf) / 8) / 2000) = 4 := by
    symm; rw [Nat.eq_sqrt]; omega
  have hc : ∃ rb, setup2 (cbufMake buf 262144 32768) (1000 : Int).toNat (1000 : Int).toNat (1 : Int).toNat 8
      = .ok ⟨(buf + alignSkip buf) / 8, (buf + alignSkip buf) / 8 + 16000, 8, 4, 4000, 4000, rb⟩ := by
    unfold setup2 split2 cbufMake
    dsimp only
    rw [if_neg (by omega)]
    simp only [show (1000 : Int).toNat = 1000 from rfl, show (1 : Int).toNat = 1 from rfl,
      show 1000 + 1000 = 2000 from rfl, hsq]
    exact ⟨_, rfl⟩
  obtain ⟨rb, hc⟩ := hc
  refine ⟨_, hc, ?_, ?_⟩
  · rw [Set.not_disjoint_iff]
    refine ⟨(buf + alignSkip buf) / 8 + 16000, ⟨0, 2000, by simp [Cache.A], by simp [Cache.A], ?_⟩,
      ⟨0, 0, by simp [Cache.B], by simp [Cache.B], ?_⟩⟩ <;> simp [Cache.A, Cache.B, View.at']
  · refine ⟨_, View.at_mem_foot (i := 0) (j := 3999) (by simp [Cache.B]) (by simp [Cache.B]), ?_⟩
    simp only [Cache.B, View.at', cbufMake]
    omega

example := C25_overlap_false
  ⟨fun t => if t = "1000".toList then 1000 else 1, fun _ => (0, none)⟩ rfl rfl 12345

/-- C25: the fixed three way split, used by the extended precision routines when the seventh entry of
`ARMAS_CONFIG` is "y", takes the positive settings 3, 64, 160 and makes `MB = 0`. -/
theorem C25_fixed3_false (buf l1mem : Nat) :
    ∃ c, fixed3 (cbufMake buf 262144 l1mem) 3 64 160 8 = some c ∧ c.c.MB = 0 := by
  unfold fixed3 cbufMake
  dsimp only
  rw [if_neg (by decide)]
  exact ⟨_, rfl, rfl⟩

/-- C25: areas `p, q` of one view each do not share a cell. -/
theorem disj_rows {b b' step nr nc nr' nc' : Nat} (h : nr ≤ step) (hb : b + nc * step ≤ b') :
    Disjoint (View.mk b step nr nc).foot (View.mk b' step nr' nc').foot := by
  refine Set.disjoint_left.mpr ?_
  rintro p ⟨i, j, hi, hj, rfl⟩ ⟨i', j', hi', hj', e⟩
  simp only [View.at'] at e hi hj
  have : (j + 1) * step ≤ nc * step := Nat.mul_le_mul_right _ (by omega)
  rw [Nat.add_mul] at this
  omega

/-- C25: the fixed three-way split.  The three areas (`KB` rows with leading dimension `step`, `MB`, `NB`
and `NB` columns) are pairwise disjoint and together need no more than the `cmem` bytes which the caller
asked for, counted from the aligned start.  Missing: that this is inside of the memory, which is false
(`C25_fixed3_overflow_false`), and that the block sizes are positive (`C25_fixed3_false`). -/
theorem C25_fixed3_partial {cb : CBuf} {mb nb kb p : Nat} {c : Cache3} (hp : 0 < p) (hp' : p ≤ 16)
    (h : fixed3 cb mb nb kb p = some c) :
    Disjoint (c.c.A c.c.KB c.c.MB).foot (c.c.B c.c.KB c.c.NB).foot ∧
      Disjoint (c.c.A c.c.KB c.c.MB).foot (View.mk c.dC c.c.step c.c.KB c.c.NB).foot ∧
      Disjoint (c.c.B c.c.KB c.c.NB).foot (View.mk c.dC c.c.step c.c.KB c.c.NB).foot ∧
      (c.dC + c.c.NB * c.c.step - c.c.Acpy) * p ≤ cb.cmem ∧ 0 < c.c.KB ∧ 0 < c.c.rb ∧
      (4 ≤ mb → 0 < c.c.MB) ∧ (4 ≤ nb → 0 < c.c.NB) := by
  unfold fixed3 at h
  dsimp only at h
  have h64 : 4 ≤ 64 / p := (Nat.le_div_iff_mul_le hp).mpr (by omega)
  by_cases hb : (if kb > 64 / p then kb else 64 / p) * (mb + 2 * nb) * p > cb.cmem
  · rw [if_pos hb] at h; cases h
  rw [if_neg hb] at h
  obtain ⟨k1, hk1⟩ : ∃ k, k = if kb > 64 / p then kb - kb % (64 / p) else kb := ⟨_, rfl⟩
  rw [← hk1] at h
  have hk1' : k1 ≤ kb ∧ (¬ kb > 64 / p → k1 = kb) := by rw [hk1]; split <;> omega
  obtain ⟨K, hK⟩ : ∃ K, K = if k1 < 4 then 4 else k1 := ⟨_, rfl⟩
  rw [← hK] at h
  obtain ⟨s, hs⟩ : ∃ s, s = if K > 64 / p then K else 64 / p := ⟨_, rfl⟩
  rw [← hs] at h
  have hK4 : 4 ≤ K := by rw [hK]; split <;> omega
  have hKs : K ≤ s := by rw [hs]; split <;> omega
  have hsb : s ≤ if kb > 64 / p then kb else 64 / p := by
    have : K = 4 ∨ K = k1 := by rw [hK]; split <;> simp
    rw [hs]
    split <;> split <;> omega
  have hle : s * (mask4 mb + 2 * mask4 nb) * p ≤ cb.cmem :=
    (Nat.mul_le_mul_right _ (Nat.mul_le_mul hsb (Nat.add_le_add (mask4_le _)
      (Nat.mul_le_mul_left _ (mask4_le _))))).trans (by omega)
  cases h
  refine ⟨disj_rows hKs (by dsimp only; omega), disj_rows hKs (by
      dsimp only; rw [Nat.add_mul]; omega), disj_rows hKs (by dsimp only; rw [Nat.add_mul]; omega), ?_,
    by dsimp only; omega, by dsimp only; split <;> omega, fun h4 => ?_, fun h4 => ?_⟩
  · refine le_trans (Nat.mul_le_mul_right _ (le_of_eq ?_)) hle
    dsimp only
    rw [show cb.data / p + (mask4 mb + mask4 nb) * s + mask4 nb * s =
      cb.data / p + s * (mask4 mb + 2 * mask4 nb) by ring, Nat.add_sub_cancel_left]
  · have := mask4_pos h4; dsimp only; omega
  · have := mask4_pos h4; dsimp only; omega

/-- Blocks of 3 rows: the leading dimension is the cache line of 8 doubles. -/
example := C25_fixed3_partial (cb := cbufMake 1000 262144 32768) (mb := 64) (nb := 64) (kb := 3) (p := 8)
  (c := ⟨⟨128, 640, 8, 4, 64, 64, 16⟩, 1152⟩) (by decide) (by decide) (by simp [fixed3, cbufMake, alignSkip, mask4])

/-- C25: with the fixed split and a workspace of 6144 bytes given by the caller the third buffer ends
behind the workspace: 64+2*16 columns of 8 doubles need all 6144 bytes, but the start of the buffers is
moved up to the next cache line. -/
theorem C25_fixed3_overflow_false (buf l1mem : Nat) :
    ∃ c, fixed3 (cbufMake buf 6144 l1mem) 64 16 8 8 = some c ∧
      buf + 6144 < 8 * (c.dC + c.c.step * c.c.NB) := by
  unfold fixed3 cbufMake
  dsimp only
  rw [if_neg (by decide)]
  refine ⟨_, rfl, ?_⟩
  have := skip_bounds buf
  have h : (buf + alignSkip buf) % 64 = 0 := by unfold alignSkip; omega
  simp [mask4]
  omega

end Armas.Props
