import Verif.Pin.Analog

/-!
# C78: the analog inputs
-/

namespace Verif.Adc

open Verif

/-! ## Specification (UM10398 25.5): the fields of CR and of a data register -/

/-- Channel `i` is selected. -/
def selected (cr : U32) (i : Nat) : Bool := cr.getLsbD i
/-- The converter's clock is that of the bus divided by this. -/
def clockDivisor (cr : U32) : Nat := cr.toNat / 256 % 256 + 1
def burst (cr : U32) : Bool := cr.getLsbD 16
/-- 0: no start, 1: start now, others: start on an event. -/
def startField (cr : U32) : Nat := cr.toNat / 2 ^ 24 % 8

def done (v : U32) : Bool := v.getLsbD 31
def overrun (v : U32) : Bool := v.getLsbD 30
/-- The ten bits of the result. -/
def result (v : U32) : Nat := v.toNat / 64 % 1024

/-- Powered and clocked. -/
def powered (s : St) : Bool := !s.pdRunCfg.getLsbD 4 && s.ahbClkCtrl.getLsbD 13

/-- Idle: no conversion is started, and none will be without software. -/
def Idle (s : St) : Prop := startField s.cr = 0 ∧ burst s.cr = false

/-- The accesses are those of one conversion of channel `ch` alone with the clock divided by `d`: all deselected, the old result dropped, the conversion started,
looks at the result until it is there, the start bits cleared. -/
def OneConversion (ch : U32) (d looks : Nat) (acts : List Act) : Prop :=
  ∃ a b c, acts = .writeCr a :: .readDr ch :: .writeCr b :: (List.replicate looks (.readDr ch) ++ [.writeCr c]) ∧
    (∀ i < 8, selected a i = false) ∧ startField a = 0 ∧
    (∀ i < 8, selected b i = decide (i = ch.toNat)) ∧ startField b = 1 ∧
    startField c = 0 ∧
    clockDivisor a = d ∧ clockDivisor b = d ∧ clockDivisor c = d ∧
    burst a = false ∧ burst b = false ∧ burst c = false

/-! ## Lemmas -/

theorem bit31 (v : U32) : (v &&& 0x80000000#32 = 0#32) ↔ done v = false := by
  unfold done
  constructor
  · intro h
    have := congrArg (fun w : U32 => w.getLsbD 31) h
    simpa using this
  · intro h
    apply BitVec.eq_of_getLsbD_eq
    intro i hi
    rw [BitVec.getLsbD_and]
    have e : (0x80000000#32 : U32) = BitVec.twoPow 32 31 := by decide
    rw [e, BitVec.getLsbD_twoPow]
    by_cases hx : 31 = i
    · subst hx; rw [h]; rfl
    · simp [hx]

theorem bit30 (v : U32) : (v &&& 0x40000000#32 ≠ 0#32) ↔ overrun v = true := by
  unfold overrun
  constructor
  · intro h
    by_cases hb : v.getLsbD 30 = true
    · exact hb
    · exfalso; apply h
      have hb' : v.getLsbD 30 = false := by simpa using hb
      apply BitVec.eq_of_getLsbD_eq
      intro i hi
      rw [BitVec.getLsbD_and]
      have e : (0x40000000#32 : U32) = BitVec.twoPow 32 30 := by decide
      rw [e, BitVec.getLsbD_twoPow]
      by_cases hx : 30 = i
      · subst hx; rw [hb']; rfl
      · simp [hx]
  · intro h e
    have := congrArg (fun w : U32 => w.getLsbD 30) e
    simp only [BitVec.getLsbD_and] at this
    rw [h] at this
    exact absurd this (by decide)

theorem result_eq (v : U32) : value v = (result v : Int) := by
  unfold value
  have h : ((v >>> 6) &&& 0x3ff#32).toNat = result v := by
    rw [BitVec.toNat_and, BitVec.toNat_ushiftRight, Nat.shiftRight_eq_div_pow]
    show (v.toNat / 64) &&& (2 ^ 10 - 1) = _
    rw [Nat.and_two_pow_sub_one_eq_mod]
    rfl
  have h2 : result v < 1024 := Nat.mod_lt _ (by decide)
  rw [BitVec.toInt_eq_toNat_of_lt (by rw [h]; omega), h]

/-- The loop ends at the first look at which the conversion is done. -/
theorem wait_eq (dr : U32 → Nat → U32) (ch : U32) : ∀ (n k : Nat) (s : St),
    (∀ j < k, done (dr ch (s.log.length + j)) = false) → done (dr ch (s.log.length + k)) = true → k < n →
    wait dr ch n s = some (dr ch (s.log.length + k), { s with log := s.log ++ List.replicate (k + 1) (.readDr ch) }) := by
  intro n
  induction n with
  | zero => intro k s _ _ h; exact absurd h (Nat.not_lt_zero _)
  | succ n ih =>
    intro k s h1 h2 h3
    unfold wait
    cases k with
    | zero =>
      have : ¬ (dr ch s.log.length &&& 0x80000000#32 = 0#32) := by
        rw [bit31]; rw [Nat.add_zero] at h2; simp [h2]
      simp [if_neg this, St.read]
    | succ k =>
      have h0 := h1 0 (by omega)
      rw [Nat.add_zero] at h0
      simp only [if_pos ((bit31 _).2 h0)]
      have e : (s.read ch).log.length = s.log.length + 1 := by simp [St.read]
      rw [ih k (s.read ch) (fun j hj => by
          rw [e, Nat.add_assoc, Nat.add_comm 1]; exact h1 (j + 1) (by omega))
        (by rw [e, Nat.add_assoc, Nat.add_comm 1]; exact h2) (by omega)]
      rw [e, Nat.add_assoc, Nat.add_comm 1]
      have : (s.read ch).log ++ List.replicate (k + 1) (Act.readDr ch) = s.log ++ List.replicate (k + 1 + 1) (.readDr ch) := by
        rw [List.replicate_succ (n := k + 1)]
        simp [St.read]
      rw [this]
      rfl

/-- Without DONE the loop goes on. -/
theorem wait_none (dr : U32 → Nat → U32) (ch : U32) : ∀ (n : Nat) (s : St),
    (∀ j < n, done (dr ch (s.log.length + j)) = false) → wait dr ch n s = none := by
  intro n
  induction n with
  | zero => intro s _; rfl
  | succ n ih =>
    intro s h
    unfold wait
    have h0 := h 0 (by omega)
    rw [Nat.add_zero] at h0
    simp only [if_pos ((bit31 _).2 h0)]
    apply ih
    intro j hj
    have e : (s.read ch).log.length = s.log.length + 1 := by simp [St.read]
    rw [e, Nat.add_assoc, Nat.add_comm 1]
    exact h (j + 1) (by omega)

theorem startField_bits (v : U32) : startField v = (if v.getLsbD 24 then 1 else 0) + (if v.getLsbD 25 then 2 else 0) + (if v.getLsbD 26 then 4 else 0) := by
  unfold startField
  simp only [BitVec.getLsbD, Nat.testBit, Nat.shiftRight_eq_div_pow, Nat.one_and_eq_mod_two, bne_iff_ne, ne_eq]
  have h24 : v.toNat / 2 ^ 25 = v.toNat / 2 ^ 24 / 2 := by rw [Nat.div_div_eq_div_mul]
  have h25 : v.toNat / 2 ^ 26 = v.toNat / 2 ^ 24 / 4 := by rw [Nat.div_div_eq_div_mul]
  rw [h24, h25]
  generalize v.toNat / 2 ^ 24 = x
  by_cases a : x % 2 = 0 <;> by_cases b : x / 2 % 2 = 0 <;> by_cases c : x / 4 % 2 = 0 <;> simp [a, b, c] <;> omega

theorem divisor_congr (v w : U32) (h : ∀ i, 8 ≤ i → i < 16 → v.getLsbD i = w.getLsbD i) : clockDivisor v = clockDivisor w := by
  unfold clockDivisor
  have : v.toNat / 256 % 256 = w.toNat / 256 % 256 := by
    apply Nat.eq_of_testBit_eq
    intro i
    have e : ∀ x : Nat, (x / 256 % 256).testBit i = (decide (i < 8) && x.testBit (8 + i)) := by
      intro x
      rw [show (256 : Nat) = 2 ^ 8 from rfl, Nat.testBit_mod_two_pow, Nat.testBit_div_two_pow, Nat.add_comm]
    rw [e, e]
    by_cases hi : i < 8
    · have := h (8 + i) (by omega) (by omega)
      simp only [BitVec.getLsbD] at this
      rw [this]
    · simp [hi]
  rw [this]

/-- The three values of CR in one poll. -/
def crClear (cr : U32) : U32 := cr &&& 0xffffff00#32
def crStart (cr ch : U32) : U32 := crClear cr ||| ((1#32 <<< (ch.toNat % 256)) ||| (1#32 <<< 24))
def crStop (cr ch : U32) : U32 := crStart cr ch &&& 0xf8ffffff#32

theorem poll_eq (dr : U32 → Nat → U32) (ch : U32) (n k : Nat) (s : St)
    (h1 : ∀ j < k, done (dr ch (s.log.length + 3 + j)) = false) (h2 : done (dr ch (s.log.length + 3 + k)) = true) (h3 : k < n) :
    poll dr ch n s = some (dr ch (s.log.length + 3 + k), { s with
      cr := crStop s.cr ch,
      log := s.log ++ .writeCr (crClear s.cr) :: .readDr ch :: .writeCr (crStart s.cr ch) :: (List.replicate (k + 1) (.readDr ch) ++ [.writeCr (crStop s.cr ch)]) }) := by
  unfold poll
  dsimp only
  rw [wait_eq dr ch n k _ (by simpa [St.setCr, St.read] using h1) (by simpa [St.setCr, St.read] using h2) h3]
  simp [St.setCr, St.read, crClear, crStart, crStop]

theorem getLsbD_one_shl (k i : Nat) (hi : i < 32) : (1#32 <<< k : U32).getLsbD i = decide (i = k) := by
  rw [BitVec.getLsbD_shiftLeft]
  by_cases h : i < k
  · have : i ≠ k := by omega
    simp [h, this, hi]
  · by_cases e : i = k
    · subst e; simp [hi]
    · have : i - k ≠ 0 := by omega
      simp [h, e, hi, BitVec.getLsbD_one, this]

theorem clear_bit (cr : U32) (i : Nat) (hi : i < 32) : (crClear cr).getLsbD i = (cr.getLsbD i && decide (8 ≤ i)) := by
  unfold crClear
  rw [BitVec.getLsbD_and]
  congr 1
  have : ∀ i < 32, (0xffffff00#32 : U32).getLsbD i = decide (8 ≤ i) := by decide
  exact this i hi

theorem start_bit (cr ch : U32) (hch : ch.toNat < 8) (i : Nat) (hi : i < 32) :
    (crStart cr ch).getLsbD i = ((cr.getLsbD i && decide (8 ≤ i)) || (decide (i = ch.toNat) || decide (i = 24))) := by
  unfold crStart
  rw [BitVec.getLsbD_or, BitVec.getLsbD_or, clear_bit _ _ hi, getLsbD_one_shl _ _ hi, getLsbD_one_shl _ _ hi, Nat.mod_eq_of_lt (by omega)]

theorem stop_bit (cr ch : U32) (hch : ch.toNat < 8) (i : Nat) (hi : i < 32) :
    (crStop cr ch).getLsbD i = (((cr.getLsbD i && decide (8 ≤ i)) || (decide (i = ch.toNat) || decide (i = 24))) && decide (i < 24 ∨ 27 ≤ i)) := by
  unfold crStop
  rw [BitVec.getLsbD_and, start_bit _ _ hch _ hi]
  congr 1
  have : ∀ i < 32, (0xf8ffffff#32 : U32).getLsbD i = decide (i < 24 ∨ 27 ≤ i) := by decide
  exact this i hi

theorem idle_bits (s : St) (h : Idle s) : s.cr.getLsbD 24 = false ∧ s.cr.getLsbD 25 = false ∧ s.cr.getLsbD 26 = false ∧ s.cr.getLsbD 16 = false := by
  obtain ⟨h1, h2⟩ := h
  rw [startField_bits] at h1
  refine ⟨?_, ?_, ?_, h2⟩
  · by_cases a : s.cr.getLsbD 24 = true
    · rw [if_pos a] at h1; omega
    · simpa using a
  · by_cases a : s.cr.getLsbD 25 = true
    · rw [if_pos a] at h1; omega
    · simpa using a
  · by_cases a : s.cr.getLsbD 26 = true
    · rw [if_pos a] at h1; omega
    · simpa using a

theorem one_conversion (s : St) (ch : U32) (hch : ch.toNat < 8) (hi : Idle s) (looks : Nat) :
    OneConversion ch (clockDivisor s.cr) looks
      (.writeCr (crClear s.cr) :: .readDr ch :: .writeCr (crStart s.cr ch) :: (List.replicate looks (.readDr ch) ++ [.writeCr (crStop s.cr ch)])) := by
  obtain ⟨b1, b2, b3, b4⟩ := idle_bits s hi
  have n24 : (24 : Nat) ≠ ch.toNat := by omega
  have n25 : (25 : Nat) ≠ ch.toNat := by omega
  have n26 : (26 : Nat) ≠ ch.toNat := by omega
  have n16 : (16 : Nat) ≠ ch.toNat := by omega
  refine ⟨_, _, _, rfl, ?_, ?_, ?_, ?_, ?_, ?_, ?_, ?_, ?_, ?_, ?_⟩
  · intro i hi8
    show (crClear s.cr).getLsbD i = false
    rw [clear_bit _ _ (by omega)]
    have : ¬ 8 ≤ i := by omega
    simp [this]
  · rw [startField_bits, clear_bit _ _ (by decide), clear_bit _ _ (by decide), clear_bit _ _ (by decide), b1, b2, b3]; rfl
  · intro i hi8
    show (crStart s.cr ch).getLsbD i = _
    rw [start_bit _ _ hch _ (by omega)]
    have : ¬ 8 ≤ i := by omega
    have h24 : i ≠ 24 := by omega
    simp [this, h24]
  · rw [startField_bits, start_bit _ _ hch _ (by decide), start_bit _ _ hch _ (by decide), start_bit _ _ hch _ (by decide), b1, b2, b3]
    simp [n25, n26]
  · rw [startField_bits, stop_bit _ _ hch _ (by decide), stop_bit _ _ hch _ (by decide), stop_bit _ _ hch _ (by decide)]
    simp
  · apply divisor_congr
    intro i h8 h16
    rw [clear_bit _ _ (by omega)]; simp [h8]
  · apply divisor_congr
    intro i h8 h16
    rw [start_bit _ _ hch _ (by omega)]
    have e1 : i ≠ ch.toNat := by omega
    have e2 : i ≠ 24 := by omega
    simp [h8, e1, e2]
  · apply divisor_congr
    intro i h8 h16
    rw [stop_bit _ _ hch _ (by omega)]
    have e1 : i ≠ ch.toNat := by omega
    have e2 : i ≠ 24 := by omega
    have e3 : i < 24 := by omega
    simp [h8, e1, e2, e3]
  · show (crClear s.cr).getLsbD 16 = false
    rw [clear_bit _ _ (by decide), b4]; rfl
  · show (crStart s.cr ch).getLsbD 16 = false
    rw [start_bit _ _ hch _ (by decide), b4]; simp [n16]
  · show (crStop s.cr ch).getLsbD 16 = false
    rw [stop_bit _ _ hch _ (by decide), b4]; simp [n16]

theorem stop_idle (s : St) (ch : U32) (hch : ch.toNat < 8) (hi : Idle s) (l : List Act) :
    Idle { s with cr := crStop s.cr ch, log := l } ∧ clockDivisor (crStop s.cr ch) = clockDivisor s.cr := by
  obtain ⟨a, b, c, he, _, _, _, _, h5, _, _, h8, _, _, h11⟩ := one_conversion s ch hch hi 0
  simp only [List.replicate_zero, List.nil_append, List.cons.injEq, Act.writeCr.injEq, true_and, and_true] at he
  obtain ⟨_, _, rfl⟩ := he
  exact ⟨⟨h5, h11⟩, h8⟩

/-! ## Theorems -/

/-- `analogValidRead` of a channel of the converter that ends: one conversion of that channel alone, with the clock as set before; the result is that of the first
look at which the conversion is done: its ten bits, or -1 if there was an overrun. The converter is idle again. -/
theorem C78_valid_read (dr : U32 → Nat → U32) (ch : U32) (n k : Nat) (s : St) (hch : ch.toNat < 8) (hi : Idle s)
    (h1 : ∀ j < k, done (dr ch (s.log.length + 3 + j)) = false) (h2 : done (dr ch (s.log.length + 3 + k)) = true) (h3 : k < n) :
    ∃ s' acts v, analogValidRead dr ch n s = some (v, s') ∧
      v = (if overrun (dr ch (s.log.length + 3 + k)) then -1 else (result (dr ch (s.log.length + 3 + k)) : Int)) ∧
      s'.log = s.log ++ acts ∧ OneConversion ch (clockDivisor s.cr) (k + 1) acts ∧
      Idle s' ∧ clockDivisor s'.cr = clockDivisor s.cr ∧ powered s' = powered s := by
  unfold analogValidRead
  rw [poll_eq dr ch n k s h1 h2 h3]
  refine ⟨_, _, _, rfl, ?_, rfl, one_conversion s ch hch hi (k + 1), (stop_idle s ch hch hi _).1, (stop_idle s ch hch hi s.log).2, rfl⟩
  dsimp only
  by_cases ho : overrun (dr ch (s.log.length + 3 + k)) = true
  · rw [if_pos ((bit30 _).2 ho), if_pos ho]
  · rw [if_neg (fun q => ho ((bit30 _).1 q)), if_neg ho, result_eq]

/-- `analogRead` likewise, with 0 for an overrun: that value says nothing. -/
theorem C78_read (dr : U32 → Nat → U32) (ch : U32) (n k : Nat) (s : St) (hch : ch.toNat < 8) (hi : Idle s)
    (h1 : ∀ j < k, done (dr ch (s.log.length + 3 + j)) = false) (h2 : done (dr ch (s.log.length + 3 + k)) = true) (h3 : k < n) :
    ∃ s' acts v, analogRead dr ch n s = some (v, s') ∧
      v = (if overrun (dr ch (s.log.length + 3 + k)) then 0 else (result (dr ch (s.log.length + 3 + k)) : Int)) ∧ 0 ≤ v ∧ v ≤ 1023 ∧
      s'.log = s.log ++ acts ∧ OneConversion ch (clockDivisor s.cr) (k + 1) acts ∧
      Idle s' ∧ clockDivisor s'.cr = clockDivisor s.cr ∧ powered s' = powered s := by
  unfold analogRead
  rw [poll_eq dr ch n k s h1 h2 h3]
  have hr : result (dr ch (s.log.length + 3 + k)) < 1024 := Nat.mod_lt _ (by decide)
  have hv : (if dr ch (s.log.length + 3 + k) &&& 0x40000000#32 ≠ 0#32 then 0 else value (dr ch (s.log.length + 3 + k))) =
      (if overrun (dr ch (s.log.length + 3 + k)) then 0 else (result (dr ch (s.log.length + 3 + k)) : Int)) := by
    by_cases ho : overrun (dr ch (s.log.length + 3 + k)) = true
    · rw [if_pos ((bit30 _).2 ho), if_pos ho]
    · rw [if_neg (fun q => ho ((bit30 _).1 q)), if_neg ho, result_eq]
  dsimp only [Option.map_some]
  rw [hv]
  refine ⟨_, _, _, rfl, rfl, ?_, ?_, rfl, one_conversion s ch hch hi (k + 1), (stop_idle s ch hch hi _).1, (stop_idle s ch hch hi s.log).2, rfl⟩
  · split <;> omega
  · split <;> omega

/-- If the conversion never ends (converter not powered, channel without a register), the functions never return. -/
theorem C78_hangs (dr : U32 → Nat → U32) (ch : U32) (s : St) (h : ∀ k, done (dr ch k) = false) (n : Nat) :
    analogRead dr ch n s = none ∧ analogValidRead dr ch n s = none := by
  have hp : poll dr ch n s = none := by
    unfold poll
    dsimp only
    rw [wait_none dr ch n _ (fun j _ => h _)]
  unfold analogRead analogValidRead
  rw [hp]
  exact ⟨rfl, rfl⟩

/-- A sequence of calls of `analogValidRead`. -/
def reads (dr : U32 → Nat → U32) (n : Nat) : List U32 → St → Option (List Int × St)
  | [], s => some ([], s)
  | ch :: chs, s =>
    match analogValidRead dr ch n s with
    | none => none
    | some (v, s') => (reads dr n chs s').map fun q => (v :: q.1, q.2)

theorem wait_some (dr : U32 → Nat → U32) (ch : U32) : ∀ (n : Nat) (s : St), wait dr ch n s ≠ none →
    ∃ k < n, (∀ j < k, done (dr ch (s.log.length + j)) = false) ∧ done (dr ch (s.log.length + k)) = true := by
  intro n
  induction n with
  | zero => intro s h; exact absurd rfl h
  | succ n ih =>
    intro s h
    by_cases hd : done (dr ch s.log.length) = true
    · exact ⟨0, by omega, fun j hj => absurd hj (Nat.not_lt_zero _), hd⟩
    · have hd' : done (dr ch s.log.length) = false := by simpa using hd
      unfold wait at h
      simp only [if_pos ((bit31 _).2 hd')] at h
      obtain ⟨k, hk, h1, h2⟩ := ih _ h
      have e : (s.read ch).log.length = s.log.length + 1 := by simp [St.read]
      refine ⟨k + 1, by omega, ?_, ?_⟩
      · intro j hj
        cases j with
        | zero => exact hd'
        | succ j =>
          have := h1 j (by omega)
          rw [e, Nat.add_assoc, Nat.add_comm 1] at this
          exact this
      · rw [e, Nat.add_assoc, Nat.add_comm 1] at h2
        exact h2

/-- Any number of reads one after the other: each is one conversion of its own channel. -/
theorem C78_reads (dr : U32 → Nat → U32) (n : Nat) : ∀ (chs : List U32) (s s' : St) (vs : List Int), (∀ ch ∈ chs, ch.toNat < 8) → Idle s →
    reads dr n chs s = some (vs, s') →
    vs.length = chs.length ∧ (∀ v ∈ vs, -1 ≤ v ∧ v ≤ 1023) ∧ Idle s' ∧ clockDivisor s'.cr = clockDivisor s.cr ∧
    ∃ actss : List (List Act), s'.log = s.log ++ actss.flatten ∧ actss.length = chs.length ∧
      ∀ p ∈ chs.zip actss, ∃ looks, OneConversion p.1 (clockDivisor s.cr) looks p.2 := by
  intro chs
  induction chs with
  | nil =>
    intro s s' vs _ hi h
    cases h
    exact ⟨rfl, fun v hv => absurd hv (by simp), hi, rfl, [], by simp, rfl, fun p hp => absurd hp (by simp)⟩
  | cons ch chs ih =>
    intro s s' vs hc hi h
    unfold reads at h
    cases hv : analogValidRead dr ch n s with
    | none => rw [hv] at h; cases h
    | some q =>
      obtain ⟨v, s1⟩ := q
      rw [hv] at h
      dsimp only at h
      cases hr : reads dr n chs s1 with
      | none => rw [hr] at h; cases h
      | some q2 =>
        obtain ⟨vs2, s2⟩ := q2
        rw [hr] at h
        cases h
        have hw : ∃ k < n, (∀ j < k, done (dr ch (s.log.length + 3 + j)) = false) ∧ done (dr ch (s.log.length + 3 + k)) = true := by
          have : poll dr ch n s ≠ none := by
            intro e
            unfold analogValidRead at hv
            rw [e] at hv; cases hv
          unfold poll at this
          dsimp only at this
          obtain ⟨k, a, b, c⟩ := wait_some dr ch n _ (fun e => this (by rw [e]))
          refine ⟨k, a, ?_, ?_⟩
          · simpa [St.setCr, St.read] using b
          · simpa [St.setCr, St.read] using c
        obtain ⟨k, k1, k2, k3⟩ := hw
        obtain ⟨s1', acts, v', g1, g2, g3, g4, g5, g6, _⟩ := C78_valid_read dr ch n k s (hc ch (by simp)) hi k2 k3 k1
        rw [hv] at g1
        cases g1
        obtain ⟨i1, i2, i3, i4, actss, i5, i6, i7⟩ := ih s1 s2 vs2 (fun c hc' => hc c (by simp [hc'])) g5 hr
        have hr2 : result (dr ch (s.log.length + 3 + k)) < 1024 := Nat.mod_lt _ (by decide)
        refine ⟨by simp [i1], ?_, i3, i4.trans g6, acts :: actss, ?_, by simp [i6], ?_⟩
        · intro x hx
          rcases List.mem_cons.1 hx with e | e
          · rw [e, g2]; split <;> omega
          · exact i2 x e
        · rw [i5, g3]; simp
        · intro p hp
          rw [List.zip_cons_cons] at hp
          rcases List.mem_cons.1 hp with e | e
          · exact ⟨k + 1, by rw [e]; exact g4⟩
          · obtain ⟨l, hl⟩ := i7 p e
            exact ⟨l, by rw [← g6]; exact hl⟩

/-- `analogBegin` with a bus clock of 4.8 to 614 MHz: the converter is powered and idle, and its clock is between 2.4 and 3.6 MHz (allowed: up to 4.5 MHz). -/
theorem C78_begin_partial (core div : U32) (s : St) (hd : div ≠ 0#32) (h1 : 4800000 ≤ (core / div).toNat) (h2 : (core / div).toNat < 614400000) :
    ∃ s', begin core div s = some s' ∧ powered s' = true ∧ Idle s' ∧ (∀ i < 8, selected s'.cr i = false) ∧
      2400000 * clockDivisor s'.cr ≤ (core / div).toNat ∧ (core / div).toNat ≤ 3600000 * clockDivisor s'.cr := by
  unfold begin
  simp only [if_neg hd]
  refine ⟨_, rfl, ?_, ?_⟩
  · unfold powered St.setCr
    dsimp only
    rw [BitVec.getLsbD_and, BitVec.getLsbD_or]
    have e1 : (~~~(1#32 <<< 4) : U32).getLsbD 4 = false := by decide
    have e2 : ((1#32 <<< 13) : U32).getLsbD 13 = true := by decide
    rw [e1, e2]; simp
  · have hq : (core / div / 2400000#32).toNat = (core / div).toNat / 2400000 := by rw [BitVec.toNat_udiv]; rfl
    generalize (core / div).toNat = p at *
    have hq1 : 2 ≤ p / 2400000 := by omega
    have hq2 : p / 2400000 < 256 := by omega
    have hm : p = 2400000 * (p / 2400000) + p % 2400000 := (Nat.div_add_mod _ _).symm
    have hml : p % 2400000 < 2400000 := Nat.mod_lt _ (by decide)
    generalize p / 2400000 = q at *
    have hs1 : (core / div / 2400000#32 - 1#32).toNat = q - 1 := by
      rw [BitVec.toNat_sub, hq]
      show (2 ^ 32 - 1 + q) % 2 ^ 32 = q - 1
      omega
    have hs : ((core / div / 2400000#32 - 1#32) <<< 8).toNat = (q - 1) * 256 := by
      rw [BitVec.toNat_shiftLeft, hs1, Nat.shiftLeft_eq]
      omega
    have hsel : ∀ i < 8, selected ((core / div / 2400000#32 - 1#32) <<< 8) i = false := by
      intro i hi
      show BitVec.getLsbD _ i = false
      rw [BitVec.getLsbD_shiftLeft]
      simp [hi]
    have hcd : clockDivisor ((core / div / 2400000#32 - 1#32) <<< 8) = q := by
      unfold clockDivisor
      rw [hs]
      omega
    refine ⟨⟨?_, ?_⟩, hsel, ?_, ?_⟩
    · show startField ((core / div / 2400000#32 - 1#32) <<< 8) = 0
      unfold startField
      rw [hs]
      omega
    · show BitVec.getLsbD ((core / div / 2400000#32 - 1#32) <<< 8) 16 = false
      unfold BitVec.getLsbD
      rw [hs]
      apply Nat.testBit_lt_two_pow
      omega
    · show 2400000 * clockDivisor ((core / div / 2400000#32 - 1#32) <<< 8) ≤ p
      rw [hcd]; omega
    · show p ≤ 3600000 * clockDivisor ((core / div / 2400000#32 - 1#32) <<< 8)
      rw [hcd]; omega

/-- With a slower bus than 2.4 MHz the subtraction wraps: all fields are ones, among them burst mode and all start bits. -/
theorem C78_begin_slow (core div : U32) (s s' : St) (hd : div ≠ 0#32) (h : (core / div).toNat < 2400000) (hb : begin core div s = some s') :
    s'.cr = 0xffffff00#32 ∧ burst s'.cr = true ∧ startField s'.cr = 7 := by
  unfold begin at hb
  simp only [if_neg hd] at hb
  cases hb
  have hq : core / div / 2400000#32 = 0#32 := by
    apply BitVec.eq_of_toNat_eq
    rw [BitVec.toNat_udiv]
    exact Nat.div_eq_of_lt h
  have e : ∀ t : St, (t.setCr ((core / div / 2400000#32 - 1#32) <<< 8)).cr = 0xffffff00#32 := by
    intro t
    show (core / div / 2400000#32 - 1#32) <<< 8 = 0xffffff00#32
    rw [hq]; decide
  rw [e]
  decide

/-- Between 4.5 and 4.8 MHz the divisor is 1 and the clock of the converter too fast. -/
theorem C78_begin_fast (core div : U32) (s s' : St) (hd : div ≠ 0#32) (h1 : 4500000 < (core / div).toNat) (h2 : (core / div).toNat < 4800000)
    (hb : begin core div s = some s') : 4500000 * clockDivisor s'.cr < (core / div).toNat := by
  unfold begin at hb
  simp only [if_neg hd] at hb
  cases hb
  have hq : core / div / 2400000#32 = 1#32 := by
    apply BitVec.eq_of_toNat_eq
    rw [BitVec.toNat_udiv]
    show (core / div).toNat / 2400000 = 1
    omega
  have e : ∀ t : St, (t.setCr ((core / div / 2400000#32 - 1#32) <<< 8)).cr = 0#32 := by
    intro t
    show (core / div / 2400000#32 - 1#32) <<< 8 = 0#32
    rw [hq]; decide
  rw [e]
  show 4500000 * 1 < _
  omega

/-- `analogEnd` switches the converter off. -/
theorem C78_end (s : St) : (stop s).pdRunCfg.getLsbD 4 = true ∧ (stop s).ahbClkCtrl.getLsbD 13 = false ∧ powered (stop s) = false := by
  have a : (stop s).pdRunCfg.getLsbD 4 = true := by
    unfold stop
    dsimp only
    rw [BitVec.getLsbD_or]
    have : ((1#32 <<< 4) : U32).getLsbD 4 = true := by decide
    rw [this]; simp
  have b : (stop s).ahbClkCtrl.getLsbD 13 = false := by
    unfold stop
    dsimp only
    rw [BitVec.getLsbD_and]
    have : (~~~(1#32 <<< 13) : U32).getLsbD 13 = false := by decide
    rw [this]; simp
  refine ⟨a, b, ?_⟩
  unfold powered
  rw [a]; rfl

/-! ## The hypotheses can be met -/

/-- After a reset: powered down, no clock. -/
def afterReset : St := ⟨0#32, 0xedf0#32, 0x85f#32, []⟩

example : (begin 48000000#32 1#32 afterReset).map (fun s => (s.cr, powered s)) = some (0x1300#32, true) := by decide +kernel

/-- A conversion that takes three looks; the result is 614. -/
def dr3 (_ : U32) (k : Nat) : U32 := if k < 6 then 0#32 else if k % 10 = 6 then 0x80009980#32 else 0xc0009980#32

example : (analogRead dr3 5#32 10 ⟨0x1300#32, 0#32, 0#32, [.writeCr 0x1300#32]⟩).map (fun q => (q.1, q.2.cr)) = some (614, 0x1320#32) := by decide +kernel

/-- Two reads, the second with an overrun. -/
example : (reads dr3 10 [5#32, 2#32] ⟨0x1300#32, 0#32, 0#32, [.writeCr 0x1300#32]⟩).map (fun q => q.1) = some [614, -1] := by decide +kernel

example : Idle ⟨0x1300#32, 0#32, 0#32, []⟩ := by unfold Idle; decide

end Verif.Adc
