import Verif.Wire.Props46
import Verif.Wire.Sensor
import Verif.Crc.Props

/-!
# C60: finding DS18x20 sensors
-/

namespace Verif.Wire

/-! ## Specification -/

/-- The CRC in the highest byte of the ROM code is right. -/
def CrcOK (x : Rom) : Prop :=
  Crc.Spec.crcR 0x8C#8 0#8 [x.extractLsb' 0 8, x.extractLsb' 8 8, x.extractLsb' 16 8, x.extractLsb' 24 8,
    x.extractLsb' 32 8, x.extractLsb' 40 8, x.extractLsb' 48 8] = x.extractLsb' 56 8

instance (x : Rom) : Decidable (CrcOK x) := inferInstanceAs (Decidable (_ = _))

/-- The family codes of DS18S20, DS18B20 and DS1822. -/
def Known (x : Rom) : Prop := familyCode x = 0x10#8 ∨ familyCode x = 0x28#8 ∨ familyCode x = 0x22#8

instance (x : Rom) : Decidable (Known x) := inferInstanceAs (Decidable (_ ∨ _))

/-- A temperature sensor the driver supports. -/
def Supported (x : Rom) : Prop := CrcOK x ∧ Known x

instance (x : Rom) : Decidable (Supported x) := inferInstanceAs (Decidable (_ ∧ _))

/-- Return code for one device: ds18x20.h, comment of `Search`. -/
def codeOf (x : Rom) : BitVec 8 := if CrcOK x then (if Known x then 0#8 else 1#8) else 2#8

/-- An entry of the device list is ready for use with the device `x`. -/
structure Entry (e : Sensor) (x : Rom) : Prop where
  addr : e.addr = x
  type : e.type = familyCode x
  nineBit : e.nineBit = (familyCode x == 0x10#8)
  idle : e.started = false

/-! ## Helper lemmas -/

theorem romByte_eq (x : Rom) (i : Nat) : romByte x i = x.extractLsb' (8 * i) 8 := rfl

theorem crc_iff (x : Rom) :
    (Crc.oneWireCRC8 ((List.range 7).map (romByte x)) == romByte x 7) = decide (CrcOK x) := by
  rw [Crc.C47_onewire_crc8_standard, Bool.eq_iff_iff, beq_iff_eq, decide_eq_true_iff]
  rfl

theorem romByte_zero (x : Rom) : romByte x 0 = familyCode x := by
  unfold romByte familyCode
  simp

theorem body_eq (j : Nat) (tmp : Sensor) (d : Driver) :
    ∃ tmp', tmp'.addr = tmp.addr ∧
      searchBody j tmp d =
        (if Supported tmp.addr then
          if j < 10 then some (tmp', { setDev d j tmp' with found := d.found + 1 }, 0#8) else none
        else some (tmp', d, codeOf tmp.addr)) ∧
      (Supported tmp.addr → Entry tmp' tmp.addr) := by
  unfold searchBody codeOf Supported
  simp only [crc_iff, romByte_zero]
  by_cases hc : CrcOK tmp.addr
  · simp only [hc, decide_true, if_true, true_and]
    by_cases hk : Known tmp.addr
    · rcases hk with h | h | h
      all_goals
        have hk : Known tmp.addr := by unfold Known; simp [h]
        simp only [h, hk, DS18S20, DS18B20, DS1822, DS_UNKNOWN, maxDsDevices, if_true]
        refine ⟨_, ?_, rfl, fun _ => ⟨?_, ?_, ?_, ?_⟩⟩
        all_goals simp [h]
    · have hk' := hk
      unfold Known at hk'
      simp only [not_or] at hk'
      simp only [hk', hk, DS18S20, DS18B20, DS1822, DS_UNKNOWN, if_false, ne_eq, not_true]
      refine ⟨_, ?_, rfl, fun h => h.elim⟩
      rfl
  · simp only [hc, decide_false, Bool.false_eq_true, if_false, false_and]
    refine ⟨_, ?_, rfl, fun h => h.elim⟩
    rfl

theorem search_junk (devs : List Rom) (s : Search) (a b : Rom) :
    (search devs s a).1 = (search devs s b).1 ∧ (search devs s a).2.2 = (search devs s b).2.2 := by
  unfold search
  split
  · exact ⟨rfl, rfl⟩
  · split
    · exact ⟨rfl, rfl⟩
    · generalize searchLoop s.last 64 0 devs s.rom 0 s.lastFamily = w
      dsimp only
      generalize (if (!decide (w.1 + 1 < 65)) = true then _ else _ : Search) = s2
      split <;> exact ⟨rfl, rfl⟩

theorem search_addr (devs : List Rom) (hfam : ∀ z ∈ devs, familyCode z ≠ 0#8) (s : Search) (a b : Rom)
    (h : (search devs s a).2.2 = true) : (search devs s a).2.1 = (search devs s b).2.1 := by
  have hd : s.done = false := by
    cases hs : s.done with
    | false => rfl
    | true => unfold search at h; rw [hs] at h; simp at h
  have hne : devs ≠ [] := by
    rintro rfl
    unfold search at h; rw [hd] at h; simp at h
  obtain ⟨f, h1⟩ := search_walk devs hne s hd a hfam
  obtain ⟨g, h2⟩ := search_walk devs hne s hd b hfam
  have hb := (search_junk devs s a b).2
  unfold call at h1 h2
  rw [h] at h1 hb
  rw [← hb] at h2
  have e1 := congrArg Prod.snd h1
  have e2 := congrArg Prod.snd h2
  simp only [if_true, Option.some.injEq] at e1 e2
  rw [e1, e2]

/-- The devices found are put into the list one after the other. -/
def place : List Rom → Nat → Driver → BitVec 8 → Option (Driver × BitVec 8) → Prop
  | [], _, d, ret, r => r = some (d, ret)
  | x :: xs, j, d, _, r =>
    if Supported x then
      if j < 10 then ∃ e, Entry e x ∧ place xs (j + 1) { setDev d j e with found := d.found + 1 } 0#8 r
      else r = none
    else place xs (j + 1) d (codeOf x) r

theorem searchFrom_place (devs : List Rom) (hfam : ∀ z ∈ devs, familyCode z ≠ 0#8) (junk : Rom) :
    ∀ (L : List Rom) (k j : Nat) (s : Search) (tmp : Sensor) (d : Driver) (ret : BitVec 8),
      (calls devs junk (L.length + 1) s).2 = L.map some ++ [none] →
      place (L.take k) j d ret (searchFrom devs k j s tmp d ret) := by
  intro L
  induction L with
  | nil =>
    intro k j s tmp d ret h
    cases k with
    | zero => rfl
    | succ k =>
      simp only [List.take_nil, place, searchFrom]
      simp only [calls, List.length_nil, List.map_nil, List.nil_append, List.cons.injEq, and_true] at h
      have hj := (search_junk devs s tmp.addr junk).2
      cases hb : (search devs s junk).2.2 with
      | true => rw [hb] at h; simp at h
      | false => rw [hj, hb]; simp
  | cons x L ih =>
    intro k j s tmp d ret h
    cases k with
    | zero => rfl
    | succ k =>
      rw [List.length_cons] at h
      simp only [calls, List.map_cons, List.cons_append, List.cons.injEq] at h
      obtain ⟨h1, h2⟩ := h
      cases hb : (search devs s junk).2.2 with
      | false => rw [hb] at h1; simp at h1
      | true =>
        rw [hb] at h1
        simp only [if_true, Option.some.injEq] at h1
        have hj := search_junk devs s tmp.addr junk
        have ha : (search devs s tmp.addr).2.1 = x := by
          rw [search_addr devs hfam s tmp.addr junk (hj.2.trans hb), h1]
        simp only [List.take_succ_cons, searchFrom, hj.2.trans hb, if_true, ha, place]
        obtain ⟨tmp', ht, he, hen⟩ := body_eq j { tmp with addr := x } d
        dsimp only at ht he hen
        rw [he]
        rw [← hj.1] at h2
        by_cases hs : Supported x
        · simp only [hs, if_true]
          by_cases hlt : j < 10
          · simp only [hlt, if_true]
            exact ⟨tmp', hen hs, ih k (j + 1) _ tmp' _ _ h2⟩
          · simp [hlt]
        · simp only [hs, if_false]
          exact ih k (j + 1) _ tmp' _ _ h2

theorem calls_search (devs : List Rom) (hnd : devs.Nodup) (hfam : ∀ z ∈ devs, familyCode z ≠ 0#8)
    (junk : Rom) : ∃ found : List Rom, found.Perm devs ∧
      (calls devs junk (found.length + 1) resetSearch).2 = found.map some ++ [none] := by
  by_cases hne : devs = []
  · subst hne
    exact ⟨[], List.Perm.nil, C46_no_device junk resetSearch 1⟩
  · obtain ⟨found, hp, hc⟩ := C46_every_device_once_partial devs hne hnd hfam junk 1
    exact ⟨found, hp, by rw [hp.length_eq]; exact hc⟩

theorem codeOf_supported {x : Rom} (h : Supported x) : codeOf x = 0#8 := by
  unfold codeOf; rw [if_pos h.1, if_pos h.2]

theorem place_spec : ∀ (L : List Rom) (j : Nat) (d : Driver) (ret : BitVec 8) (r : Option (Driver × BitVec 8)),
    place L j d ret r → (∀ i (h : i < L.length), Supported L[i] → j + i < 10) →
    ∃ d', r = some (d', (L.map codeOf).getLastD ret) ∧
      d'.found = d.found + (L.filter (fun x => decide (Supported x))).length ∧
      (∀ i (h : i < L.length), Supported L[i] → Entry (d'.dev (j + i)) L[i]) ∧
      (∀ n, (∀ i (h : i < L.length), Supported L[i] → n ≠ j + i) → d'.dev n = d.dev n) := by
  intro L
  induction L with
  | nil => exact fun j d ret r h _ => ⟨d, h, rfl, fun i h => by simp at h, fun n _ => rfl⟩
  | cons x xs ih =>
    intro j d ret r h hb
    unfold place at h
    have hb' : ∀ i (h : i < xs.length), Supported xs[i] → j + 1 + i < 10 := by
      intro i hi hs
      have := hb (i + 1) (by simp; omega) (by simpa using hs)
      omega
    by_cases hs : Supported x
    · rw [if_pos hs, if_pos (by have := hb 0 (by simp) (by simpa using hs); omega)] at h
      obtain ⟨e, he, hp⟩ := h
      obtain ⟨d', h1, h2, h3, h4⟩ := ih (j + 1) _ _ r hp hb'
      refine ⟨d', ?_, ?_, ?_, ?_⟩
      · rw [h1, List.map_cons, codeOf_supported hs, List.getLastD_cons]
      · rw [h2, List.filter_cons_of_pos (by simpa using hs), List.length_cons]
        dsimp only
        omega
      · intro i hi hsi
        cases i with
        | zero =>
          have : d'.dev j = e := by
            rw [h4 j (fun i _ _ => by omega)]
            simp [setDev]
          simpa [this] using he
        | succ i =>
          have := h3 i (by simpa using hi) (by simpa using hsi)
          rw [show j + (i + 1) = j + 1 + i by omega]
          simpa using this
      · intro n hn
        rw [h4 n (fun i hi hsi => by
          have := hn (i + 1) (by simp; omega) (by simpa using hsi)
          omega)]
        have := hn 0 (by simp) (by simpa using hs)
        simp only [setDev]
        rw [if_neg (by omega)]
    · rw [if_neg hs] at h
      obtain ⟨d', h1, h2, h3, h4⟩ := ih (j + 1) _ _ r h hb'
      refine ⟨d', ?_, ?_, ?_, ?_⟩
      · rw [h1, List.map_cons, List.getLastD_cons]
      · rw [h2, List.filter_cons_of_neg (by simpa using hs)]
      · intro i hi hsi
        cases i with
        | zero => exact absurd (by simpa using hsi) hs
        | succ i =>
          have := h3 i (by simpa using hi) (by simpa using hsi)
          rw [show j + (i + 1) = j + 1 + i by omega]
          simpa using this
      · intro n hn
        exact h4 n (fun i hi hsi => by
          have := hn (i + 1) (by simp; omega) (by simpa using hsi)
          omega)

theorem place_overflow : ∀ (L : List Rom) (j : Nat) (d : Driver) (ret : BitVec 8)
    (r : Option (Driver × BitVec 8)), place L j d ret r →
    (∃ i, ∃ h : i < L.length, Supported L[i] ∧ 10 ≤ j + i) → r = none := by
  intro L
  induction L with
  | nil => rintro j d ret r _ ⟨i, h, _⟩; simp at h
  | cons x xs ih =>
    rintro j d ret r h ⟨i, hi, hs, h10⟩
    unfold place at h
    have tail : i ≠ 0 → ∃ i, ∃ h : i < xs.length, Supported xs[i] ∧ 10 ≤ j + 1 + i := by
      intro h0
      obtain ⟨m, rfl⟩ : ∃ m, i = m + 1 := ⟨i - 1, by omega⟩
      exact ⟨m, by simpa using hi, by simpa using hs, by omega⟩
    by_cases hx : Supported x
    · rw [if_pos hx] at h
      by_cases hj : j < 10
      · rw [if_pos hj] at h
        obtain ⟨e, _, hp⟩ := h
        exact ih _ _ _ r hp (tail (by omega))
      · rw [if_neg hj] at h; exact h
    · rw [if_neg hx] at h
      refine ih _ _ _ r h (tail ?_)
      rintro rfl
      exact hx (by simpa using hs)

/-! ## C60 -/

/-- C60, what `Search` does on every bus without the family code 0, whatever the local variable `sDevTmp`
contains at first: the devices are found in some order `found`; the `i`-th one goes to entry `i` of the
list if it is a supported sensor; the count is the number of supported sensors among the first `max`; the
other entries are unchanged; the return code is that of the *last* device (4 without a device).  If a
supported sensor comes after ten other devices and `max` lets it through, the store is outside of the list. -/
theorem C60_search_exact (devs : List Rom) (hnd : devs.Nodup) (hfam : ∀ z ∈ devs, familyCode z ≠ 0#8)
    (max : Nat) (tmp : Sensor) (d : Driver) :
    ∃ found : List Rom, found.Perm devs ∧
      ((∀ i (h : i < (found.take max).length), Supported (found.take max)[i] → i < 10) →
        ∃ d', dsSearch devs max tmp d = some (d', ((found.take max).map codeOf).getLastD 4#8) ∧
          d'.found = ((found.take max).filter (fun x => decide (Supported x))).length ∧
          (∀ i (h : i < (found.take max).length), Supported (found.take max)[i] →
            Entry (d'.dev i) (found.take max)[i]) ∧
          ∀ n, (∀ h : n < (found.take max).length, ¬ Supported (found.take max)[n]) →
            d'.dev n = d.dev n) ∧
      ((∃ i, ∃ h : i < (found.take max).length, Supported (found.take max)[i] ∧ 10 ≤ i) →
        dsSearch devs max tmp d = none) := by
  obtain ⟨found, hp, hc⟩ := calls_search devs hnd hfam tmp.addr
  have hpl := searchFrom_place devs hfam tmp.addr found max 0 resetSearch tmp { d with found := 0 } 4#8 hc
  refine ⟨found, hp, fun hb => ?_, fun ho => ?_⟩
  · obtain ⟨d', h1, h2, h3, h4⟩ := place_spec _ _ _ _ _ hpl (fun i h hs => by
      have := hb i h hs; omega)
    refine ⟨d', h1, by simpa using h2, fun i h hs => by simpa using h3 i h hs, fun n hn => ?_⟩
    refine h4 n (fun i hi hs => ?_)
    rintro rfl
    exact hn (by omega) (by simpa using hs)
  · refine place_overflow _ _ _ _ _ hpl ?_
    obtain ⟨i, h, hs, h10⟩ := ho
    exact ⟨i, h, hs, by omega⟩

/-- C60 (partial): if all devices on the bus are supported sensors and `max` is at most 10, `Search` finds
each of them (but not more than `max`): the indices below `m_foundDevices` are valid and belong to different
sensors of the bus, and the return code is 0, or 4 if there is no device.  Missing: buses with other devices
(`C60_gap`, `C60_code_of_last`), `max` above 10 (`C60_search_exact`). -/
theorem C60_all_found_partial (devs : List Rom) (hnd : devs.Nodup) (hall : ∀ z ∈ devs, Supported z)
    (max : Nat) (hmax : max ≤ 10) (h1 : 1 ≤ max) (tmp : Sensor) (d : Driver) :
    ∃ d' ret, dsSearch devs max tmp d = some (d', ret) ∧
      d'.found = min max devs.length ∧ ret = (if devs = [] then 4#8 else 0#8) ∧
      (∀ i, i < d'.found → ∃ x ∈ devs, Entry (d'.dev i) x) ∧
      (∀ i j, i < d'.found → j < d'.found → (d'.dev i).addr = (d'.dev j).addr → i = j) ∧
      (devs.length ≤ max → ∀ x ∈ devs, ∃ i, i < d'.found ∧ (d'.dev i).addr = x) := by
  have hfam : ∀ z ∈ devs, familyCode z ≠ 0#8 := by
    intro z hz h0
    rcases (hall z hz).2 with h | h | h <;> rw [h0] at h <;> cases h
  obtain ⟨found, hp, hs, _⟩ := C60_search_exact devs hnd hfam max tmp d
  have hsup : ∀ x ∈ found.take max, Supported x :=
    fun x hx => hall x (hp.mem_iff.1 (List.mem_of_mem_take hx))
  have hlen : (found.take max).length = min max devs.length := by rw [List.length_take, hp.length_eq]
  obtain ⟨d', h2, h3, h4, _⟩ := hs (fun i h _ => by omega)
  have hcount : d'.found = (found.take max).length := by
    rw [h3, List.filter_eq_self.2 (fun x hx => by simpa using hsup x hx)]
  have hent : ∀ i (h : i < (found.take max).length), Entry (d'.dev i) (found.take max)[i] :=
    fun i h => h4 i h (hsup _ (List.getElem_mem h))
  have hnd' : (found.take max).Nodup := (hp.nodup_iff.2 hnd).sublist (List.take_sublist _ _)
  refine ⟨d', _, h2, by rw [hcount, hlen], ?_, ?_, ?_, ?_⟩
  · split
    · rename_i he
      subst he
      rw [List.Perm.eq_nil hp]; simp
    · rename_i he
      have hne : found.take max ≠ [] := by
        intro h
        have := congrArg List.length h
        rw [hlen, List.length_nil] at this
        have : devs.length ≠ 0 := fun h => he (List.length_eq_zero_iff.1 h)
        omega
      rw [List.getLastD_eq_getLast?, List.getLast?_map, List.getLast?_eq_some_getLast hne]
      exact codeOf_supported (hsup _ (List.getLast_mem hne))
  · intro i hi
    rw [hcount] at hi
    exact ⟨_, hp.mem_iff.1 (List.mem_of_mem_take (List.getElem_mem hi)), hent i hi⟩
  · intro i j hi hj he
    rw [hcount] at hi hj
    rw [(hent i hi).addr, (hent j hj).addr] at he
    exact (List.getElem_inj hnd').1 he
  · intro hle x hx
    have hx' : x ∈ found.take max := by
      rw [List.take_of_length_le (by rw [hp.length_eq]; exact hle)]
      exact hp.mem_iff.2 hx
    obtain ⟨i, hi, rfl⟩ := List.getElem_of_mem hx'
    exact ⟨i, by rw [hcount]; exact hi, (hent i hi).addr⟩

/-! ### Findings -/

theorem calls_junk (devs : List Rom) (hfam : ∀ z ∈ devs, familyCode z ≠ 0#8) (a b : Rom) :
    ∀ k s, (calls devs a k s).2 = (calls devs b k s).2 := by
  intro k
  induction k with
  | zero => intro s; rfl
  | succ k ih =>
    intro s
    obtain ⟨h1, h2⟩ := search_junk devs s a b
    simp only [calls]
    rw [h1, h2, ih]
    cases hb : (search devs s b).2.2 with
    | false => rfl
    | true => rw [search_addr devs hfam s a b (h2.trans hb)]

seal place searchFrom calls

/-- A DS2450 (an analog-digital converter). -/
def exOther : Rom := 0xD800000000000120#64
/-- A DS18B20. -/
def exSensor : Rom := 0x2900000000000128#64

theorem exOther_not : ¬ Supported exOther := by decide +kernel
theorem exSensor_sup : Supported exSensor := by decide +kernel
theorem exMixed_family : ∀ z ∈ [exSensor, exOther], familyCode z ≠ 0#8 := by
  simp [exSensor, exOther, familyCode]

theorem exMixed_found (junk : Rom) : (calls [exSensor, exOther] junk 3 resetSearch).2 =
    [some exOther, some exSensor, none] := by
  rw [calls_junk _ exMixed_family junk 0#64]
  decide +kernel

/-- C60 (finding): a device of another kind found first.  Search reports one sensor and success, but entry 0, the
only valid index, is not filled: the sensor is at entry 1, which `startConversion` and `temperature` refuse. -/
theorem C60_gap (tmp : Sensor) (d : Driver) (presence : Bool) (now : BitVec 32) :
    ∃ d', dsSearch [exSensor, exOther] 10 tmp d = some (d', 0#8) ∧ d'.found = 1 ∧
      d'.dev 0 = d.dev 0 ∧ (d'.dev 1).addr = exSensor ∧ startConversion d' 1 presence now = (d', none, false) ∧
      temperature d' 1 = none := by
  have hpl := searchFrom_place [exSensor, exOther] exMixed_family tmp.addr
    [exOther, exSensor] 10 0 resetSearch tmp { d with found := 0 } 4#8 (by simpa using exMixed_found tmp.addr)
  simp only [List.take, place, exOther_not, exSensor_sup, if_true, if_false] at hpl
  rw [if_pos (by omega)] at hpl
  obtain ⟨e, he, hr⟩ := hpl
  unfold dsSearch
  generalize searchFrom [exSensor, exOther] 10 0 resetSearch tmp { d with found := 0 } 4#8 = r at hr
  subst hr
  refine ⟨_, rfl, rfl, ?_, ?_, rfl, rfl⟩
  · simp [setDev]
  · simpa [setDev] using he.addr

/-- C60 (finding): the return code is that of the last device only: here a sensor is found and the code is 1
(unknown device type); in `C60_gap` there is an unknown device and the code is 0. -/
theorem C60_code_of_last (tmp : Sensor) (d : Driver) :
    ∃ d', dsSearch [exSensor, 0x5300000000000201#64] 10 tmp d = some (d', 1#8) ∧ d'.found = 1 := by
  have hfam : ∀ z ∈ [exSensor, 0x5300000000000201#64], familyCode z ≠ 0#8 := by
    simp [exSensor, familyCode]
  have hc : (calls [exSensor, 0x5300000000000201#64] tmp.addr 3 resetSearch).2 =
      [some exSensor, some 0x5300000000000201#64, none] := by
    rw [calls_junk _ hfam tmp.addr 0#64]
    decide +kernel
  have hpl := searchFrom_place [exSensor, 0x5300000000000201#64] hfam tmp.addr
    [exSensor, 0x5300000000000201#64] 10 0 resetSearch tmp { d with found := 0 } 4#8
    (by simpa using hc)
  have hn : ¬ Supported 0x5300000000000201#64 := by decide +kernel
  have hcode : codeOf 0x5300000000000201#64 = 1#8 := by decide +kernel
  simp only [List.take, place, hn, exSensor_sup, if_true, if_false, hcode] at hpl
  rw [if_pos (by omega)] at hpl
  obtain ⟨e, he, hr⟩ := hpl
  unfold dsSearch
  generalize searchFrom [exSensor, 0x5300000000000201#64] 10 0 resetSearch tmp { d with found := 0 } 4#8 = r at hr
  subst hr
  exact ⟨_, rfl, rfl⟩

/-! ### The hypotheses are met -/

/-- Two DS18B20 and a DS18S20, with their CRCs. -/
def exSensors : List Rom := [0x2900000000000128#64, 0x7000000000000228#64, 0xCC00000000000110#64]

theorem exSensors_nodup : exSensors.Nodup := by unfold exSensors; simp
theorem exSensors_sup : ∀ z ∈ exSensors, Supported z := by
  intro z hz
  unfold exSensors at hz
  simp only [List.mem_cons, List.not_mem_nil, or_false] at hz
  rcases hz with rfl | rfl | rfl <;> decide +kernel

example (tmp : Sensor) (d : Driver) : ∃ d' ret, dsSearch exSensors 10 tmp d = some (d', ret) ∧
    d'.found = 3 ∧ ret = 0#8 := by
  obtain ⟨d', ret, h1, h2, h3, _⟩ := C60_all_found_partial exSensors exSensors_nodup exSensors_sup 10
    (by omega) (by omega) tmp d
  exact ⟨d', ret, h1, h2, h3⟩

example (tmp : Sensor) (d : Driver) := C60_search_exact [exSensor, exOther] (by simp [exSensor, exOther])
  exMixed_family 10 tmp d

end Verif.Wire
