import Verif.Wire.Props60

/-!
# C61: reading temperatures from DS18x20 sensors

Temperatures are in sixteenths of a degree Celsius.
-/

namespace Verif.Wire

/-! ## Specification (data sheets) -/

/-- The 16-bit two's complement number in the first two bytes of the scratchpad. -/
def register (p : Nat → BitVec 8) : Int := (p 1 ++ p 0).toInt

/-- DS18B20, DS1822: the register counts sixteenths; with 9, 10 or 11 bits of resolution (bits 5 and 6 of the
configuration byte) the lowest 3, 2 or 1 bits mean nothing and are taken as zero. -/
def readingB20 (p : Nat → BitVec 8) : Int :=
  let unused : Nat := 3 - ((p 4).extractLsb' 5 2).toNat
  2 ^ unused * (register p / 2 ^ unused)

/-- DS18S20: the register counts halves.  With COUNT_PER_C = 16 (byte 7) the data sheet gives
TEMP_READ - 1/4 + (COUNT_PER_C - COUNT_REMAIN) / COUNT_PER_C, where TEMP_READ is the register without its lowest
bit, and COUNT_REMAIN is byte 6. -/
def readingS20 (p : Nat → BitVec 8) : Int :=
  if p 7 = 16#8 then 16 * (register p / 2) - 4 + (16 - (p 6).toNat) else 8 * register p

/-- The reading of a sensor with the ROM code `x`. -/
def reading (x : Rom) (p : Nat → BitVec 8) : Int :=
  if familyCode x = 0x10#8 then readingS20 p else readingB20 p

/-- -55 … 125 °C -/
def InRange (t : Int) : Prop := -55 * 16 ≤ t ∧ t ≤ 125 * 16

instance (t : Int) : Decidable (InRange t) := inferInstanceAs (Decidable (_ ∧ _))

/-! ## Helper lemmas -/

theorem reg_eq (p : Nat → BitVec 8) :
    ((p 1).setWidth 16 <<< 8) ||| (p 0).setWidth 16 = p 1 ++ p 0 := by
  apply BitVec.eq_of_getLsbD_eq
  intro i hi
  simp only [BitVec.getLsbD_or, BitVec.getLsbD_shiftLeft, BitVec.getLsbD_setWidth, BitVec.getLsbD_append]
  by_cases h : i < 8
  · simp [h, hi]
  · simp only [hi, h]
    have : (p 0).getLsbD i = false := BitVec.getLsbD_of_ge _ _ (by omega)
    simp only [this]
    simp
    omega

theorem mask_toInt (w : BitVec 16) (k : Nat) (hk : k ≤ 4) :
    (w &&& ~~~(BitVec.ofNat 16 (2 ^ k - 1))).toInt = 2 ^ k * (w.toInt / 2 ^ k) := by
  have h : w &&& ~~~(BitVec.ofNat 16 (2 ^ k - 1)) = (w >>> k) <<< k := by
    apply BitVec.eq_of_getLsbD_eq
    intro i hi
    simp only [BitVec.getLsbD_and, BitVec.getLsbD_not, BitVec.getLsbD_ofNat, Nat.testBit_two_pow_sub_one,
      BitVec.getLsbD_shiftLeft, BitVec.getLsbD_ushiftRight, hi]
    by_cases h : i < k
    · simp [h]
    · have e : k + (i - k) = i := by omega
      simp [h, e]
  rw [h, BitVec.toInt_eq_toNat_cond, BitVec.toInt_eq_toNat_cond]
  simp only [BitVec.toNat_shiftLeft, BitVec.toNat_ushiftRight, Nat.shiftLeft_eq, Nat.shiftRight_eq_div_pow]
  have hw := w.isLt
  generalize w.toNat = n at *
  have : k = 0 ∨ k = 1 ∨ k = 2 ∨ k = 3 ∨ k = 4 := by omega
  rcases this with rfl | rfl | rfl | rfl | rfl <;> (split <;> split <;> omega)

theorem raw_b20 (p : Nat → BitVec 8) : (rawOf false p).toInt = readingB20 p := by
  unfold rawOf readingB20 register
  rw [reg_eq]
  dsimp only
  have cfg : ∀ b : BitVec 8,
      (b &&& 0x60#8 = 0x00#8 ↔ (b.extractLsb' 5 2).toNat = 0) ∧
      (b &&& 0x60#8 = 0x20#8 ↔ (b.extractLsb' 5 2).toNat = 1) ∧
      (b &&& 0x60#8 = 0x40#8 ↔ (b.extractLsb' 5 2).toNat = 2) ∧ (b.extractLsb' 5 2).toNat < 4 := by
    decide +kernel
  obtain ⟨c0, c1, c2, c3⟩ := cfg (p 4)
  generalize ((p 4).extractLsb' 5 2).toNat = c at *
  rw [if_neg (by decide)]
  simp only [c0, c1, c2]
  have : c = 0 ∨ c = 1 ∨ c = 2 ∨ c = 3 := by omega
  rcases this with rfl | rfl | rfl | rfl
  · exact mask_toInt _ 3 (by omega)
  · exact mask_toInt _ 2 (by omega)
  · exact mask_toInt _ 1 (by omega)
  · simp

/-- Values a DS18S20 can have in its register, and twice as much. -/
def RegisterS20 (p : Nat → BitVec 8) : Prop := -2040 ≤ register p ∧ register p ≤ 2040

theorem raw_s20 (p : Nat → BitVec 8) (hr : RegisterS20 p) : (rawOf true p).toInt = readingS20 p := by
  unfold RegisterS20 at hr
  unfold rawOf readingS20
  unfold register at *
  rw [reg_eq]
  generalize p 1 ++ p 0 = w at *
  dsimp only
  rw [if_pos rfl]
  have h3 : (w <<< 3).toInt = 8 * w.toInt := by
    rw [BitVec.toInt_eq_toNat_cond] at hr ⊢
    rw [BitVec.toInt_eq_toNat_cond]
    simp only [BitVec.toNat_shiftLeft, Nat.shiftLeft_eq]
    have hw := w.isLt
    generalize w.toNat = n at *
    split <;> split <;> split at hr <;> omega
  split
  · have hm : (w <<< 3 &&& 0xFFF0#16).toInt = 2 ^ 4 * ((w <<< 3).toInt / 2 ^ 4) := mask_toInt (w <<< 3) 4 (by omega)
    rw [h3] at hm
    generalize w <<< 3 &&& 0xFFF0#16 = m at *
    have hb := (p 6).isLt
    have hml := m.isLt
    rw [BitVec.toInt_eq_toNat_cond] at hm ⊢
    simp only [BitVec.toNat_sub, BitVec.toNat_add, BitVec.toNat_ofNat, BitVec.toNat_setWidth]
    generalize (p 6).toNat = r at *
    generalize w.toInt = z at *
    generalize m.toNat = n at *
    rw [Nat.mod_eq_of_lt (show r < 2 ^ 16 by omega)]
    split <;> split at hm <;> omega
  · exact h3

theorem raw_reading (x : Rom) (p : Nat → BitVec 8) (hs : familyCode x = 0x10#8 → RegisterS20 p) :
    (rawOf (familyCode x == 0x10#8) p).toInt = reading x p := by
  unfold reading
  split
  · rename_i h
    rw [show (familyCode x == 0x10#8) = true by simpa using h]
    exact raw_s20 p (hs h)
  · rename_i h
    rw [show (familyCode x == 0x10#8) = false by simpa using h]
    exact raw_b20 p

/-! ## C61 -/

/-- C61, one reading: the entry `i` belongs to the sensor `x`, which is on the bus with the scratchpad `p`, and
its conversion is over.  `readResult` reports success; `lastReadOk` says whether the reading of the data sheet is
in the range of the sensor; `temperature` is this reading, or the previous value if it is out of range.
Nothing is changed for other sensors, and a second `readResult` reports failure until a new conversion. -/
theorem C61_reading (pads : Pads) (d : Driver) (i : Nat) (hi : i < d.found) (x : Rom)
    (haddr : (d.dev i).addr = x) (hnine : (d.dev i).nineBit = (familyCode x == 0x10#8))
    (hstarted : (d.dev i).started = true) (now : BitVec 32) (hready : (d.dev i).readyAt ≤ now)
    (p : Nat → BitVec 8) (hp : pads x = some p) (hs : familyCode x = 0x10#8 → RegisterS20 p) :
    ∃ d', readResult pads d i true now = (d', true) ∧ d'.found = d.found ∧
      lastReadOk d' i = decide (InRange (reading x p)) ∧
      temperature d' i = (if InRange (reading x p) then some (reading x p) else temperature d i) ∧
      (∀ j, j ≠ i → d'.dev j = d.dev j) ∧ (d'.dev i).addr = x ∧
      ∀ presence now', readResult pads d' i presence now' = (d', false) := by
  have hraw : (rawOf (d.dev i).nineBit (fun n => if n < 9 then readPad pads x n else (d.dev i).data n)).toInt =
      reading x p := by
    rw [hnine, ← raw_reading x p hs]
    simp only [rawOf, readPad, hp]
    rfl
  unfold readResult
  rw [if_neg (by omega)]
  dsimp only
  rw [if_neg (by
    rw [hstarted]
    intro h
    rcases h with h | h
    · cases h
    · exact absurd h (BitVec.not_lt.2 hready)), if_neg (by decide), haddr, hraw]
  have hin : decide (-55 * 16 ≤ reading x p ∧ reading x p ≤ 125 * 16) = decide (InRange (reading x p)) := rfl
  have hif : (if InRange (reading x p) then some (reading x p) else temperature d i) =
      if decide (InRange (reading x p)) = true then some (reading x p) else temperature d i := by
    simp only [decide_eq_true_eq]
  have ht : temperature d i = some (d.dev i).last := by unfold temperature; rw [if_neg (by omega)]
  rw [hin, hif, ht]
  generalize decide (InRange (reading x p)) = ok
  have hng : ¬ d.found ≤ i := by omega
  refine ⟨_, rfl, rfl, ?_, ?_, ?_, ?_, ?_⟩
  · unfold lastReadOk setDev
    dsimp only
    rw [if_neg hng]
    cases ok <;> simp
  · unfold temperature setDev
    dsimp only
    rw [if_neg hng]
    cases ok <;> simp
  · intro j hj
    simp [setDev, hj]
  · simp only [setDev, if_true]
    split <;> rfl
  · intro presence now'
    rw [if_neg (by show ¬ d.found ≤ i; omega), if_pos]
    left
    simp [setDev]

/-- C61: without a conversion, or before `readyAt`, or if no device answers the reset, nothing is read. -/
theorem C61_refused (pads : Pads) (d : Driver) (i : Nat) (presence : Bool) (now : BitVec 32)
    (h : d.found ≤ i ∨ (d.dev i).started = false ∨ now < (d.dev i).readyAt ∨ presence = false) :
    readResult pads d i presence now = (d, false) := by
  unfold readResult
  dsimp only
  rcases h with h | h | h | h
  · rw [if_pos h]
  · rw [if_pos (Or.inl h)]; split <;> rfl
  · rw [if_pos (Or.inr h)]; split <;> rfl
  · rw [if_pos h]
    split
    · rfl
    · split <;> rfl

/-- C61 (partial): no result is read in the 800 ms after the start of a conversion at the (true) time `t0`, and
it can be read from then on, as long as the millisecond counter does not wrap.  Missing: the wrap
(`C61_wrap_early`, `C61_wrap_blocked`). -/
theorem C61_conversion_time_partial (pads : Pads) (d : Driver) (i : Nat) (hi : i < d.found) (x : Rom)
    (he : (d.dev i).addr = x) (htype : (d.dev i).type ≠ 0#8) (t0 t1 : Nat) (h01 : t0 ≤ t1)
    (hnowrap : t0 / 2 ^ 32 = t1 / 2 ^ 32 ∧ t0 % 2 ^ 32 + 800 < 2 ^ 32) :
    ∃ d', startConversion d i true (BitVec.ofNat 32 t0) = (d', some x, true) ∧ d'.found = d.found ∧
      (d'.dev i).addr = x ∧ (d'.dev i).nineBit = (d.dev i).nineBit ∧ (∀ j, j ≠ i → d'.dev j = d.dev j) ∧
      temperature d' i = temperature d i ∧
      ((readResult pads d' i true (BitVec.ofNat 32 t1)).2 = true ↔ t0 + 800 ≤ t1) := by
  unfold startConversion
  rw [if_neg (by omega)]
  dsimp only
  rw [if_pos ⟨Or.inl htype, rfl⟩, he]
  refine ⟨_, rfl, rfl, by simp [setDev], by simp [setDev], fun j hj => by simp [setDev, hj], ?_, ?_⟩
  · unfold temperature setDev
    simp
  · unfold readResult
    rw [if_neg (by show ¬ d.found ≤ i; omega)]
    simp only [setDev, if_true]
    have hlt : BitVec.ofNat 32 t1 < BitVec.ofNat 32 t0 + leadTime ↔ t1 < t0 + 800 := by
      rw [BitVec.lt_def, BitVec.toNat_add]
      simp only [leadTime, BitVec.toNat_ofNat]
      omega
    by_cases h : t1 < t0 + 800
    · rw [if_pos (Or.inr (hlt.2 h))]
      simp; omega
    · rw [if_neg (by
        rintro (hc | hc)
        · cases hc
        · exact h (hlt.1 hc)), if_neg (by decide)]
      simp; omega

/-! Helper lemmas -/

theorem startAll_spec (t0 : BitVec 32) : ∀ k j (d : Driver), j + k = d.found →
    (∀ i, j ≤ i → i < d.found → (d.dev i).type ≠ 0#8) →
    (startAll true t0 k j d).2 = (List.range' j k).map (fun i => (d.dev i).addr) ∧
    (startAll true t0 k j d).1.found = d.found ∧
    ∀ i, (startAll true t0 k j d).1.dev i =
      if j ≤ i ∧ i < j + k then { d.dev i with started := true, readyAt := t0 + 800#32 } else d.dev i := by
  intro k
  induction k with
  | zero =>
    intro j d _ _
    refine ⟨rfl, rfl, fun i => ?_⟩
    rw [if_neg (by omega)]
    rfl
  | succ k ih =>
    intro j d hk ht
    have hc : startConversion d j true t0 =
        (setDev d j { d.dev j with started := true, readyAt := t0 + leadTime }, some (d.dev j).addr, true) := by
      unfold startConversion
      rw [if_neg (by omega)]
      dsimp only
      rw [if_pos ⟨Or.inl (ht j (Nat.le_refl _) (by omega)), rfl⟩]
    simp only [startAll, hc]
    obtain ⟨h1, h2, h3⟩ := ih (j + 1)
      (setDev d j { d.dev j with started := true, readyAt := t0 + leadTime })
      (by show j + 1 + k = d.found; omega)
      (fun i hi hf => by
        simp only [setDev]
        rw [if_neg (by omega)]
        exact ht i (by omega) hf)
    refine ⟨?_, h2, fun i => ?_⟩
    · rw [h1, List.range'_succ, List.map_cons]
      simp only [Option.toList, List.cons_append, List.nil_append, List.cons.injEq, true_and]
      apply List.map_congr_left
      intro i hi
      simp only [List.mem_range'_1] at hi
      simp only [setDev]
      rw [if_neg (by omega)]
    · rw [h3 i]
      simp only [setDev]
      by_cases hij : i = j
      · subst hij
        rw [if_neg (by omega), if_pos rfl, if_pos (by omega)]
        rfl
      · rw [if_neg hij]
        by_cases h : j ≤ i ∧ i < j + (k + 1)
        · rw [if_pos h, if_pos (by omega)]
        · rw [if_neg h, if_neg (by omega)]

theorem readResult_other (pads : Pads) (d : Driver) (i : Nat) (b : Bool) (now : BitVec 32) :
    (readResult pads d i b now).1.found = d.found ∧
    ∀ j, j ≠ i → (readResult pads d i b now).1.dev j = d.dev j := by
  unfold readResult
  dsimp only
  split
  · exact ⟨rfl, fun _ _ => rfl⟩
  · split
    · exact ⟨rfl, fun _ _ => rfl⟩
    · split
      · exact ⟨rfl, fun _ _ => rfl⟩
      · exact ⟨rfl, fun j hj => by simp [setDev, hj]⟩

theorem readResult_local (pads : Pads) (d d' : Driver) (i : Nat) (b : Bool) (now : BitVec 32)
    (hf : d.found = d'.found) (hd : d.dev i = d'.dev i) :
    (readResult pads d i b now).1.dev i = (readResult pads d' i b now).1.dev i := by
  unfold readResult
  dsimp only
  rw [hf, hd]
  split
  · exact hd
  · split
    · exact hd
    · split
      · exact hd
      · simp [setDev]

theorem readAll_spec (pads : Pads) (t1 : BitVec 32) : ∀ k j (d : Driver),
    (readAll pads true t1 k j d).found = d.found ∧
    ∀ i, (readAll pads true t1 k j d).dev i =
      if j ≤ i ∧ i < j + k then (readResult pads d i true t1).1.dev i else d.dev i := by
  intro k
  induction k with
  | zero =>
    intro j d
    refine ⟨rfl, fun i => ?_⟩
    rw [if_neg (by omega)]
    rfl
  | succ k ih =>
    intro j d
    simp only [readAll]
    obtain ⟨h1, h2⟩ := ih (j + 1) (readResult pads d j true t1).1
    obtain ⟨o1, o2⟩ := readResult_other pads d j true t1
    refine ⟨h1.trans o1, fun i => ?_⟩
    rw [h2 i]
    by_cases hij : i = j
    · subst hij
      rw [if_neg (by omega), if_pos (by omega)]
    · by_cases h : j ≤ i ∧ i < j + (k + 1)
      · rw [if_pos h, if_pos (by omega)]
        exact readResult_local pads _ _ i true t1 o1 (o2 i hij)
      · rw [if_neg h, if_neg (by omega), o2 i hij]

/-- C61, all sensors: after `Search`, `startConversionAll` gives the command to every sensor found, in the order
of the list, and `readResultAll` at a time at which the conversions are over gives each index the reading of its
own sensor, or leaves its value if the reading is out of range. -/
theorem C61_all (pads : Pads) (d : Driver) (xs : List Rom) (hf : d.found = xs.length)
    (hent : ∀ i (h : i < xs.length), Entry (d.dev i) xs[i]) (hknown : ∀ x ∈ xs, Known x)
    (hpads : ∀ x ∈ xs, ∃ p, pads x = some p ∧ (familyCode x = 0x10#8 → RegisterS20 p))
    (t0 t1 : BitVec 32) (hready : t0 + 800#32 ≤ t1) :
    (startAll true t0 d.found 0 d).2 = xs ∧
    ∀ i (h : i < xs.length), ∃ p, pads xs[i] = some p ∧
      let d2 := readAll pads true t1 d.found 0 (startAll true t0 d.found 0 d).1
      lastReadOk d2 i = decide (InRange (reading xs[i] p)) ∧
      temperature d2 i = (if InRange (reading xs[i] p) then some (reading xs[i] p) else temperature d i) := by
  have hty : ∀ i, 0 ≤ i → i < d.found → (d.dev i).type ≠ 0#8 := by
    intro i _ hi
    rw [hf] at hi
    rw [(hent i hi).type]
    rcases hknown _ (List.getElem_mem hi) with h | h | h <;> rw [h] <;> decide
  obtain ⟨s1, s2, s3⟩ := startAll_spec t0 d.found 0 d (by omega) hty
  constructor
  · rw [s1]
    apply List.ext_getElem
    · simp [hf]
    · intro i h1 h2
      simp only [List.getElem_map, List.getElem_range', Nat.one_mul, Nat.zero_add]
      exact (hent i h2).addr
  · intro i hi
    obtain ⟨p, hp, hs⟩ := hpads _ (List.getElem_mem hi)
    refine ⟨p, hp, ?_⟩
    generalize startAll true t0 d.found 0 d = S at *
    obtain ⟨r1, r2⟩ := readAll_spec pads t1 d.found 0 S.1
    have hdev : S.1.dev i = { d.dev i with started := true, readyAt := t0 + 800#32 } := by
      rw [s3 i, if_pos (by omega)]
    have he := hent i hi
    obtain ⟨d', k1, k2, k3, k4, _⟩ := C61_reading pads S.1 i (by rw [s2]; omega) xs[i]
      (by rw [hdev]; exact he.addr) (by rw [hdev]; exact he.nineBit) (by rw [hdev]) t1 (by rw [hdev]; exact hready)
      p hp hs
    have hd2 : (readAll pads true t1 d.found 0 S.1).dev i = d'.dev i := by
      rw [r2 i, if_pos (by omega), k1]
    have hfd : (readAll pads true t1 d.found 0 S.1).found = d'.found := by rw [r1, k2]
    dsimp only
    constructor
    · rw [← k3]
      unfold lastReadOk
      rw [hfd, hd2]
    · have : temperature S.1 i = temperature d i := by
        unfold temperature
        rw [s2, hdev]
      rw [← this, ← k4]
      unfold temperature
      rw [hfd, hd2]

/-! ### Findings -/

/-- C61 (finding): when the counter wraps during the conversion time, the result can be read at once, long before
the sensor is ready: here 100 ms before the wrap. -/
theorem C61_wrap_early (pads : Pads) (d : Driver) (i : Nat) (hi : i < d.found) (htype : (d.dev i).type ≠ 0#8) :
    (readResult pads (startConversion d i true (BitVec.ofNat 32 (2 ^ 32 - 100))).1 i true
      (BitVec.ofNat 32 (2 ^ 32 - 100))).2 = true := by
  unfold startConversion
  rw [if_neg (by omega)]
  dsimp only
  rw [if_pos ⟨Or.inl htype, rfl⟩]
  unfold readResult
  rw [if_neg (by show ¬ d.found ≤ i; omega)]
  simp only [setDev, if_true]
  rw [if_neg (by simp [leadTime]), if_neg (by decide)]

/-- C61 (finding): a result not read before the counter wraps is refused, however long ago the conversion was
(up to 49 days). -/
theorem C61_wrap_blocked (pads : Pads) (d : Driver) (i : Nat) (now : BitVec 32)
    (hstarted : now < (d.dev i).readyAt) : readResult pads d i true now = (d, false) :=
  C61_refused pads d i true now (Or.inr (Or.inr (Or.inl hstarted)))

/-- C61 (finding): the CRC of the scratchpad is not checked.  If the sensor is gone but another device answers the
reset, the nine bytes are ones, and a DS18B20 is reported to have -1/16 °C, with success and `lastReadOk`. -/
theorem C61_absent_accepted (pads : Pads) (d : Driver) (i : Nat) (hi : i < d.found)
    (habsent : pads (d.dev i).addr = none) (hnine : (d.dev i).nineBit = false)
    (hstarted : (d.dev i).started = true) (now : BitVec 32) (hready : (d.dev i).readyAt ≤ now) :
    ∃ d', readResult pads d i true now = (d', true) ∧ lastReadOk d' i = true ∧ temperature d' i = some (-1) := by
  have hraw : (rawOf (d.dev i).nineBit (fun n => if n < 9 then readPad pads (d.dev i).addr n
      else (d.dev i).data n)).toInt = -1 := by
    rw [hnine]
    simp only [rawOf, readPad, habsent, show (0 : Nat) < 9 by decide, show (1 : Nat) < 9 by decide,
      show (4 : Nat) < 9 by decide, if_true]
    rw [if_neg (by decide)]
    decide
  unfold readResult
  rw [if_neg (by omega)]
  dsimp only
  rw [if_neg (by
    rw [hstarted]
    intro h
    rcases h with h | h
    · cases h
    · exact absurd h (BitVec.not_lt.2 hready)), if_neg (by decide), hraw]
  have hng : ¬ d.found ≤ i := by omega
  refine ⟨_, rfl, ?_, ?_⟩
  · unfold lastReadOk setDev
    dsimp only
    rw [if_neg hng]
    simp
  · unfold temperature setDev
    dsimp only
    rw [if_neg hng]
    simp

/-! ### The hypotheses are met -/

/-- A scratchpad: +25.0625 °C, 12 bits. -/
def exPad : Nat → BitVec 8 := fun n => [0x91#8, 0x01#8, 0#8, 0#8, 0x7F#8].getD n 0#8
/-- A DS18S20 with -0.5 °C in its register and 12 sixteenths remaining. -/
def exPadS : Nat → BitVec 8 := fun n => [0xFF#8, 0xFF#8, 0#8, 0#8, 0#8, 0#8, 0x0C#8, 0x10#8].getD n 0#8

example : reading exSensor exPad = 401 := by decide +kernel
example : reading 0xCC00000000000110#64 exPadS = -16 ∧ RegisterS20 exPadS :=
  ⟨by decide +kernel, by decide +kernel, by decide +kernel⟩

def exDriver : Driver :=
  ⟨2, fun i => ⟨if i = 0 then 0x10#8 else 0x28#8, i = 0, fun _ => 0#8,
    if i = 0 then 0xCC00000000000110#64 else exSensor, true, false, 0, 0, false, 0#32⟩⟩

def exPads : Pads := fun x => if x = exSensor then some exPad
  else if x = 0xCC00000000000110#64 then some exPadS else none

example := C61_all exPads exDriver [0xCC00000000000110#64, exSensor] rfl
  (by
    intro i h
    have : i = 0 ∨ i = 1 := by simp at h; omega
    rcases this with rfl | rfl <;> refine ⟨rfl, ?_, ?_, rfl⟩ <;>
      simp [exDriver, familyCode, exSensor])
  (by
    intro x hx
    simp only [List.mem_cons, List.not_mem_nil, or_false] at hx
    rcases hx with rfl | rfl
    · exact Or.inl (by decide)
    · exact Or.inr (Or.inl (by decide)))
  (by
    intro x hx
    simp only [List.mem_cons, List.not_mem_nil, or_false] at hx
    rcases hx with rfl | rfl
    · exact ⟨exPadS, by simp [exPads, exSensor], fun _ => ⟨by decide +kernel, by decide +kernel⟩⟩
    · exact ⟨exPad, by simp [exPads], fun h => absurd h (by decide)⟩)
  1000#32 1800#32 (by decide)

example := C61_conversion_time_partial exPads exDriver 1 (by decide) exSensor (by decide) (by decide) 5000 5800
  (by decide) (by decide)

end Verif.Wire
