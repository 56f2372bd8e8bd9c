import Verif.Wire.Bits

/-!
# C76: bits and bytes on the 1-Wire line
-/

namespace Verif.Wire.Bits

open Verif

/-! ## Specification (timing of the DS18B20 data sheet; `U` is a microsecond) -/

/-- The bits of a byte in the order in which they are sent. -/
def lsbFirst (v : Byte) : List Bool := (List.range 8).map v.getLsbD

/-- A slot in which a device sees the bit `b`: for a one the line is low for 1 to 15 µs, for a zero 60 to 120 µs; the slot takes at least 60 µs
and ends with at least 1 µs high. -/
def WriteSlot (U : Nat) (b : Bool) (seg : Trace) : Prop :=
  ∃ l h, seg = [(.low, l), (.high, h)] ∧ U ≤ h ∧ 60 * U ≤ l + h ∧ if b then U ≤ l ∧ l ≤ 15 * U else 60 * U ≤ l ∧ l < 120 * U

/-- Slots one after the other. -/
def Slots (U : Nat) : List Bool → Trace → Prop
  | [], tr => tr = []
  | b :: bs, tr => ∃ a c, tr = a ++ c ∧ WriteSlot U b a ∧ Slots U bs c

/-- A slot in which a device can answer: low for at least 1 µs and less than 15 µs, then released; at least 60 µs. -/
def ReadSlot (U : Nat) (seg : Trace) : Prop :=
  ∃ l w x, seg = [(.low, l), (.up, w), (.up, x)] ∧ U ≤ l ∧ l < 15 * U ∧ 60 * U ≤ l + w + x

def ReadSlots (U : Nat) : Nat → Trace → Prop
  | 0, tr => tr = []
  | n + 1, tr => ∃ a c, tr = a ++ c ∧ ReadSlot U a ∧ ReadSlots U n c

/-- The devices answer, from this moment on, with these bits; for a zero the line is held low until the given time after the falling edge. -/
def Sends (σ : Trace → Bool) : Trace → List (Bool × Nat) → Prop
  | _, [] => True
  | tr, (b, hold) :: rest =>
    (∀ l w, σ (tr ++ [(.low, l), (.up, w)]) = (b || decide (hold ≤ l + w))) ∧
    ∀ l w x, Sends σ (tr ++ [(.low, l), (.up, w), (.up, x)]) rest

/-- The delays are those of C72: not shorter than two microseconds less than asked for, and at most `late` too long. -/
def InTime (U late : Nat) (dur : Nat → Nat → Nat) : Prop := ∀ i n, U * (n - 2) ≤ dur i n ∧ dur i n ≤ U * n + late

/-! ## Writing -/

/-- What a bit written does to the line, exactly. -/
theorem C76_write_bit (dur : Nat → Nat → Nat) (v : Byte) (s : St) :
    let r := writeBit dur v s
    r.trace = s.trace ++ (if v.getLsbD 0 then [(.low, dur s.nd 10), (.high, dur (s.nd + 1) 55)] else [(.low, dur s.nd 65), (.high, dur (s.nd + 1) 5)]) ∧
    r.drive = .high ∧ r.irq = true ∧ r.nd = s.nd + 2 ∧ r.parasite = s.parasite := by
  have hv : (v &&& 1#8 ≠ 0#8) ↔ v.getLsbD 0 = true := by revert v; decide +kernel
  unfold writeBit wait
  dsimp only
  by_cases h : v.getLsbD 0 = true
  · rw [if_pos (hv.2 h), if_pos h, List.append_assoc]
    exact ⟨rfl, rfl, rfl, rfl, rfl⟩
  · rw [if_neg (fun q => h (hv.1 q)), if_neg h, List.append_assoc]
    exact ⟨rfl, rfl, rfl, rfl, rfl⟩

theorem slots_append {U : Nat} : ∀ {as : List Bool} {a : Trace} {bs : List Bool} {b : Trace}, Slots U as a → Slots U bs b → Slots U (as ++ bs) (a ++ b) := by
  intro as
  induction as with
  | nil => intro a bs b ha hb; rw [show a = [] from ha]; exact hb
  | cons x as ih =>
    intro a bs b ha hb
    obtain ⟨c, d, rfl, h1, h2⟩ := ha
    exact ⟨c, d ++ b, by rw [List.append_assoc], h1, ih h2 hb⟩

/-- From `s` to `s'` these bits were written. -/
def Wrote (U : Nat) (bits : List Bool) (s s' : St) : Prop := (∃ seg, s'.trace = s.trace ++ seg ∧ Slots U bits seg) ∧ s'.parasite = s.parasite

theorem Wrote.trans {U : Nat} {as bs : List Bool} {s s' s'' : St} (h : Wrote U as s s') (g : Wrote U bs s' s'') : Wrote U (as ++ bs) s s'' := by
  obtain ⟨⟨a, a1, a2⟩, a3⟩ := h
  obtain ⟨⟨b, b1, b2⟩, b3⟩ := g
  exact ⟨⟨a ++ b, by rw [b1, a1, List.append_assoc], slots_append a2 b2⟩, b3.trans a3⟩

theorem writeBit_wrote {U late : Nat} {dur : Nat → Nat → Nat} (hU : 0 < U) (hd : InTime U late dur) (hl : late ≤ 5 * U) (b : Bool) (s : St) :
    Wrote U [b] s (writeBit dur (if b then 1#8 else 0#8) s) := by
  obtain ⟨h1, -, -, -, h5⟩ := C76_write_bit dur (if b then 1#8 else 0#8) s
  refine ⟨⟨_, h1, _, [], (List.append_nil _).symm, ?_, rfl⟩, h5⟩
  cases b
  · rw [if_neg (by decide)]
    have := hd s.nd 65
    have := hd (s.nd + 1) 5
    refine ⟨_, _, rfl, ?_, ?_, ?_⟩
    · omega
    · omega
    · rw [if_neg (by decide)]; omega
  · rw [if_pos (by decide)]
    have := hd s.nd 10
    have := hd (s.nd + 1) 55
    refine ⟨_, _, rfl, ?_, ?_, ?_⟩
    · omega
    · omega
    · rw [if_pos (by decide)]; omega

theorem writeLoop_wrote {U late : Nat} {dur : Nat → Nat → Nat} (hU : 0 < U) (hd : InTime U late dur) (hl : late ≤ 5 * U) (v : Byte) : ∀ ms s,
    Wrote U (ms.map fun m => decide (m &&& v ≠ 0#8)) s (writeLoop dur v ms s) := by
  intro ms
  induction ms with
  | nil => intro s; exact ⟨⟨[], (List.append_nil _).symm, rfl⟩, rfl⟩
  | cons m l ih =>
    intro s
    rw [writeLoop, List.map_cons]
    have h1 := writeBit_wrote hU hd hl (decide (m &&& v ≠ 0#8)) s
    have e : (if decide (m &&& v ≠ 0#8) = true then 1#8 else 0#8) = (if m &&& v ≠ 0#8 then 1#8 else 0#8) := by
      by_cases q : m &&& v ≠ 0#8
      · rw [if_pos q, if_pos (decide_eq_true q)]
      · rw [if_neg q, if_neg (by simpa using q)]
    rw [e] at h1
    exact h1.trans (ih _)

theorem depower_wrote {U : Nat} {bits : List Bool} {s s' : St} (h : Wrote U bits s s') : Wrote U bits s (depowerUnless s') := by
  unfold depowerUnless
  split
  · exact h
  · exact h

theorem masks_bits (v : Byte) : (masks.map fun m => decide (m &&& v ≠ 0#8)) = lsbFirst v := by
  revert v; decide +kernel

theorem write_wrote {U late : Nat} {dur : Nat → Nat → Nat} (hU : 0 < U) (hd : InTime U late dur) (hl : late ≤ 5 * U) (v : Byte) (s : St) :
    Wrote U (lsbFirst v) s (write dur v s) := by
  rw [← masks_bits]
  exact depower_wrote (writeLoop_wrote hU hd hl v masks s)

theorem writes_wrote {U late : Nat} {dur : Nat → Nat → Nat} (hU : 0 < U) (hd : InTime U late dur) (hl : late ≤ 5 * U) : ∀ (buf : List Byte) s,
    Wrote U (buf.flatMap lsbFirst) s (buf.foldl (fun s v => write dur v s) s) := by
  intro buf
  induction buf with
  | nil => intro s; exact ⟨⟨[], (List.append_nil _).symm, rfl⟩, rfl⟩
  | cons v l ih =>
    intro s
    rw [List.flatMap_cons, List.foldl_cons]
    exact (write_wrote hU hd hl v s).trans (ih _)

/-- Bytes written appear on the line as the bits of each byte, lowest bit first, nothing else; provided no delay is more than 5 µs late. -/
theorem C76_write_partial (U late : Nat) (dur : Nat → Nat → Nat) (hU : 0 < U) (hd : InTime U late dur) (hl : late ≤ 5 * U) (buf : List Byte) (s : St) :
    ∃ seg, (writeBytes dur buf s).trace = s.trace ++ seg ∧ Slots U (buf.flatMap lsbFirst) seg :=
  (depower_wrote (writes_wrote hU hd hl buf s)).1

/-- Selecting a device sends 0x55 and its code, skipping 0xcc. -/
theorem C76_select_partial (U late : Nat) (dur : Nat → Nat → Nat) (hU : 0 < U) (hd : InTime U late dur) (hl : late ≤ 5 * U) (rom : List Byte) (s : St) :
    (∃ seg, (select dur rom s).trace = s.trace ++ seg ∧ Slots U (lsbFirst 0x55#8 ++ rom.flatMap lsbFirst) seg) ∧
    (∃ seg, (skip dur s).trace = s.trace ++ seg ∧ Slots U (lsbFirst 0xcc#8) seg) :=
  ⟨((write_wrote hU hd hl 0x55#8 s).trans (writes_wrote hU hd hl rom _)).1, (write_wrote hU hd hl 0xcc#8 s).1⟩

/-- If the processor is interrupted for 50 µs while the line is low for a one, the devices see a zero. -/
theorem C76_write_late (U : Nat) (dur : Nat → Nat → Nat) (s : St) (h : 60 * U ≤ dur s.nd 10) (h2 : dur s.nd 10 < 120 * U) (h3 : U ≤ dur (s.nd + 1) 55) :
    ∃ seg, (writeBit dur 1#8 s).trace = s.trace ++ seg ∧ WriteSlot U false seg := by
  obtain ⟨h1, -⟩ := C76_write_bit dur 1#8 s
  rw [if_pos (by decide)] at h1
  refine ⟨_, h1, _, _, rfl, h3, by omega, ?_⟩
  rw [if_neg (by decide)]
  exact ⟨h, h2⟩

theorem writeLoop_end (dur : Nat → Nat → Nat) (v : Byte) : ∀ ms s, ms ≠ [] → (writeLoop dur v ms s).drive = .high ∧ (writeLoop dur v ms s).irq = true ∧
    (writeLoop dur v ms s).parasite = s.parasite := by
  intro ms
  induction ms with
  | nil => intro s h; exact absurd rfl h
  | cons m l ih =>
    intro s _
    rw [writeLoop]
    obtain ⟨-, h2, h3, -, h5⟩ := C76_write_bit dur (if m &&& v ≠ 0#8 then 1#8 else 0#8) s
    rcases l with _ | ⟨m', l⟩
    · exact ⟨h2, h3, h5⟩
    · have := ih (writeBit dur (if m &&& v ≠ 0#8 then 1#8 else 0#8) s) (by simp)
      exact ⟨this.1, this.2.1, this.2.2.trans h5⟩

/-- After a byte the line is held high if the devices take their power from it, otherwise released; until `OneWireDePower`. -/
theorem C76_power (dur : Nat → Nat → Nat) (v : Byte) (s : St) :
    (write dur v s).drive = (if s.parasite then .high else .float) ∧ (write dur v s).irq = true ∧
    (dePower s).drive = .float ∧ (dePower s).trace = s.trace := by
  obtain ⟨h1, h2, h3⟩ := writeLoop_end dur v masks s (by decide)
  unfold write depowerUnless
  rw [h3]
  by_cases h : s.parasite = true
  · rw [if_pos h, if_pos h]; exact ⟨h1, h2, rfl, rfl⟩
  · rw [if_neg h, if_neg h]; exact ⟨rfl, rfl, rfl, rfl⟩

/-! ## Reading -/

/-- What is read: a zero only if it is still held when the line is looked at. -/
def seen (dur : Nat → Nat → Nat) : Nat → List (Bool × Nat) → List Bool
  | _, [] => []
  | nd, (b, hold) :: rest => (b || decide (hold ≤ dur nd 3 + dur (nd + 1) 10)) :: seen dur (nd + 3) rest

/-- The slots of `n` bits read, exactly. -/
def readTrace (dur : Nat → Nat → Nat) : Nat → Nat → Trace
  | _, 0 => []
  | nd, n + 1 => [(.low, dur nd 3), (.up, dur (nd + 1) 10), (.up, dur (nd + 2) 53)] ++ readTrace dur (nd + 3) n

theorem readBit_eq (σ : Trace → Bool) (dur : Nat → Nat → Nat) (s : St) :
    readBit σ dur s = (σ (s.trace ++ [(.low, dur s.nd 3), (.up, dur (s.nd + 1) 10)]),
      { s with trace := s.trace ++ [(.low, dur s.nd 3), (.up, dur (s.nd + 1) 10), (.up, dur (s.nd + 2) 53)], nd := s.nd + 3, irq := true, drive := .up }) := by
  unfold readBit wait level
  simp only [List.append_assoc]
  rfl

/-- The bytes are put together from the bits. -/
def accum : List Byte → List Bool → Byte → Byte
  | m :: ms, b :: bs, v => accum ms bs (if b then v ||| m else v)
  | _, _, v => v

theorem readLoop_eq (σ : Trace → Bool) (dur : Nat → Nat → Nat) : ∀ (ms : List Byte) v s (bits rest : List (Bool × Nat)), bits.length = ms.length →
    Sends σ s.trace (bits ++ rest) →
    (readLoop σ dur ms v s).1 = accum ms (seen dur s.nd bits) v ∧
    (readLoop σ dur ms v s).2.trace = s.trace ++ readTrace dur s.nd ms.length ∧
    (readLoop σ dur ms v s).2.nd = s.nd + 3 * ms.length ∧
    Sends σ (readLoop σ dur ms v s).2.trace rest := by
  intro ms
  induction ms with
  | nil =>
    intro v s bits rest hl h
    rw [List.eq_nil_of_length_eq_zero hl] at h ⊢
    exact ⟨rfl, (List.append_nil _).symm, rfl, h⟩
  | cons m ms ih =>
    intro v s bits rest hl h
    rcases bits with _ | ⟨⟨b, hold⟩, bits⟩
    · cases hl
    · rw [List.cons_append] at h
      obtain ⟨h1, h2⟩ := h
      rw [readLoop, readBit_eq]
      dsimp only
      rw [h1]
      obtain ⟨q1, q2, q3, q4⟩ := ih (if (b || decide (hold ≤ dur s.nd 3 + dur (s.nd + 1) 10)) = true then v ||| m else v)
        { s with trace := s.trace ++ [(.low, dur s.nd 3), (.up, dur (s.nd + 1) 10), (.up, dur (s.nd + 2) 53)], nd := s.nd + 3, irq := true, drive := .up }
        bits rest (by simpa using hl) (h2 _ _ _)
      refine ⟨q1, ?_, ?_, q4⟩
      · rw [q2, List.length_cons, readTrace, List.append_assoc]
      · rw [q3, List.length_cons]
        dsimp only
        omega

theorem seen_length (dur : Nat → Nat → Nat) : ∀ bits nd, (seen dur nd bits).length = bits.length := by
  intro bits
  induction bits with
  | nil => intro nd; rfl
  | cons p l ih => intro nd; rw [seen, List.length_cons, List.length_cons, ih]

theorem accum_bits (bs : List Bool) (h : bs.length = 8) : lsbFirst (accum masks bs 0#8) = bs := by
  have key : ∀ b0 b1 b2 b3 b4 b5 b6 b7 : Bool, lsbFirst (accum masks [b0, b1, b2, b3, b4, b5, b6, b7] 0#8) = [b0, b1, b2, b3, b4, b5, b6, b7] := by
    decide +kernel
  match bs, h with
  | [b0, b1, b2, b3, b4, b5, b6, b7], _ => exact key b0 b1 b2 b3 b4 b5 b6 b7

theorem seen_append (dur : Nat → Nat → Nat) : ∀ as nd bs, seen dur nd (as ++ bs) = seen dur nd as ++ seen dur (nd + 3 * as.length) bs := by
  intro as
  induction as with
  | nil => intro nd bs; rfl
  | cons p l ih =>
    intro nd bs
    rw [List.cons_append, seen, seen, ih, List.cons_append, List.length_cons, show nd + 3 + 3 * l.length = nd + 3 * (l.length + 1) by omega]

theorem readTrace_append (dur : Nat → Nat → Nat) : ∀ a nd b, readTrace dur nd (a + b) = readTrace dur nd a ++ readTrace dur (nd + 3 * a) b := by
  intro a
  induction a with
  | zero => intro nd b; rw [Nat.zero_add]; rfl
  | succ a ih =>
    intro nd b
    rw [show a + 1 + b = (a + b) + 1 by omega, readTrace, readTrace, ih, List.append_assoc, show nd + 3 + 3 * a = nd + 3 * (a + 1) by omega]

/-- The bytes read are the bits seen, lowest bit first; the slots on the line are as given. -/
theorem C76_read_exact (σ : Trace → Bool) (dur : Nat → Nat → Nat) : ∀ (n : Nat) (s : St) (bits : List (Bool × Nat)), bits.length = 8 * n → Sends σ s.trace bits →
    (readBytes σ dur n s).1.length = n ∧
    (readBytes σ dur n s).1.flatMap lsbFirst = seen dur s.nd bits ∧
    (readBytes σ dur n s).2.trace = s.trace ++ readTrace dur s.nd (8 * n) := by
  intro n
  induction n with
  | zero =>
    intro s bits hl _
    rw [List.eq_nil_of_length_eq_zero hl]
    exact ⟨rfl, rfl, (List.append_nil _).symm⟩
  | succ n ih =>
    intro s bits hl h
    obtain ⟨a, b, rfl, ha, hb⟩ : ∃ a b, bits = a ++ b ∧ a.length = 8 ∧ b.length = 8 * n :=
      ⟨bits.take 8, bits.drop 8, (List.take_append_drop 8 bits).symm, by rw [List.length_take]; omega, by rw [List.length_drop]; omega⟩
    obtain ⟨q1, q2, q3, q4⟩ := readLoop_eq σ dur masks 0#8 s a b ha h
    have hm : masks.length = 8 := rfl
    rw [hm] at q2 q3
    obtain ⟨r1, r2, r3⟩ := ih (readLoop σ dur masks 0#8 s).2 b hb q4
    rw [readBytes]
    dsimp only
    unfold read
    refine ⟨by rw [List.length_cons, r1], ?_, ?_⟩
    · rw [List.flatMap_cons, r2, q1, accum_bits _ (by rw [seen_length, ha]), seen_append, ha, q3]
    · rw [r3, q2, q3, show 8 * (n + 1) = 8 + 8 * n by omega, readTrace_append, List.append_assoc]

/-- The bytes read are those the devices send, which hold a zero for at least 15 µs after the falling edge, and the slots are good; provided the
delays are less than 1 µs late. -/
theorem C76_read_partial (U late : Nat) (σ : Trace → Bool) (dur : Nat → Nat → Nat) (hU : 0 < U) (hd : InTime U late dur) (hl : late < U) (n : Nat) (s : St)
    (bits : List (Bool × Nat)) (hn : bits.length = 8 * n) (hs : Sends σ s.trace bits) (hh : ∀ p ∈ bits, 15 * U ≤ p.2) :
    (readBytes σ dur n s).1.flatMap lsbFirst = bits.map Prod.fst ∧
    ∃ seg, (readBytes σ dur n s).2.trace = s.trace ++ seg ∧ ReadSlots U (8 * n) seg := by
  obtain ⟨-, h2, h3⟩ := C76_read_exact σ dur n s bits hn hs
  refine ⟨?_, _, h3, ?_⟩
  · rw [h2]
    clear h2 h3 hn hs
    generalize s.nd = nd
    induction bits generalizing nd with
    | nil => rfl
    | cons p l ih =>
      obtain ⟨b, hold⟩ := p
      rw [seen, List.map_cons, ih (fun q hq => hh q (List.mem_cons_of_mem _ hq))]
      have h1 := hh (b, hold) List.mem_cons_self
      have := hd nd 3
      have := hd (nd + 1) 10
      dsimp only at h1
      rw [decide_eq_false (by omega), Bool.or_false]
  · generalize 8 * n = k
    generalize s.nd = nd
    induction k generalizing nd with
    | zero => rfl
    | succ k ih =>
      refine ⟨_, _, rfl, ⟨_, _, _, rfl, ?_, ?_, ?_⟩, ih _⟩
      · have := hd nd 3; omega
      · have := hd nd 3; omega
      · have := hd nd 3; have := hd (nd + 1) 10; have := hd (nd + 2) 53; omega

/-- If the processor is interrupted before the line is looked at, a zero is read as a one. -/
theorem C76_read_late (σ : Trace → Bool) (dur : Nat → Nat → Nat) (s : St) (b : Bool) (hold : Nat) (hs : Sends σ s.trace [(b, hold)])
    (h : hold ≤ dur s.nd 3 + dur (s.nd + 1) 10) : (readBit σ dur s).1 = true := by
  rw [readBit_eq]
  dsimp only
  rw [hs.1, decide_eq_true h, Bool.or_true]

/-! ## Reset -/

/-- The line released for `k` times the short delay. -/
def ups (dur : Nat → Nat → Nat) : Nat → Nat → Trace
  | _, 0 => []
  | nd, k + 1 => (.up, dur nd 2) :: ups dur (nd + 1) k

theorem resetLoop_ready (σ : Trace → Bool) (dur : Nat → Nat → Nat) : ∀ n m s, s.drive = .up → n + 1 < m →
    (∀ k, k < n → σ (s.trace ++ ups dur s.nd (k + 1)) = false) → σ (s.trace ++ ups dur s.nd (n + 1)) = true →
    resetLoop σ dur m s = (true, { s with trace := s.trace ++ ups dur s.nd (n + 1), nd := s.nd + (n + 1) }) := by
  intro n
  induction n with
  | zero =>
    intro m s hd hm _ h1
    rcases m with _ | m
    · omega
    · rw [resetLoop, if_neg (by omega)]
      dsimp only
      have : level σ (wait dur 2 s) = true := by
        unfold level wait
        dsimp only
        rw [hd]
        exact h1
      rw [this, if_neg (by simp)]
      unfold wait
      rw [hd]
      rfl
  | succ n ih =>
    intro m s hd hm h0 h1
    rcases m with _ | m
    · omega
    · rw [resetLoop, if_neg (by omega)]
      dsimp only
      have : level σ (wait dur 2 s) = false := by
        unfold level wait
        dsimp only
        rw [hd]
        exact h0 0 (by omega)
      have ht : ∀ k, (wait dur 2 s).trace ++ ups dur (wait dur 2 s).nd (k + 1) = s.trace ++ ups dur s.nd (k + 1 + 1) := by
        intro k
        unfold wait
        rw [hd, List.append_assoc]
        rfl
      rw [this, if_pos rfl, ih m (wait dur 2 s) hd (by omega) (fun k hk => by rw [ht]; exact h0 (k + 1) (by omega)) (by rw [ht]; exact h1), ht]
      unfold wait
      dsimp only
      rw [show s.nd + 1 + (n + 1) = s.nd + (n + 1 + 1) by omega]

theorem resetLoop_stuck (σ : Trace → Bool) (dur : Nat → Nat → Nat) : ∀ m s, s.drive = .up →
    (∀ k, k < m → σ (s.trace ++ ups dur s.nd (k + 1)) = false) →
    resetLoop σ dur (m + 1) s = (false, { s with trace := s.trace ++ ups dur s.nd m, nd := s.nd + m }) := by
  intro m
  induction m with
  | zero =>
    intro s hd _
    rw [resetLoop, if_pos rfl]
    show _ = (false, { s with trace := s.trace ++ [], nd := s.nd })
    rw [List.append_nil]
  | succ m ih =>
    intro s hd h
    rw [resetLoop, if_neg (by omega)]
    dsimp only
    have : level σ (wait dur 2 s) = false := by
      unfold level wait
      dsimp only
      rw [hd]
      exact h 0 (by omega)
    have ht : ∀ k, (wait dur 2 s).trace ++ ups dur (wait dur 2 s).nd k = s.trace ++ ups dur s.nd (k + 1) := by
      intro k
      unfold wait
      rw [hd, List.append_assoc]
      rfl
    rw [this, if_pos rfl, ih (wait dur 2 s) hd (fun k hk => by rw [ht]; exact h (k + 1) (by omega)), ht]
    unfold wait
    dsimp only
    rw [show s.nd + 1 + m = s.nd + (m + 1) by omega]

/-- The line becomes high at the `n`-th look, the last is the 124th: then there is one reset pulse, and the answer is whether the line is low some time
after it was released. -/
theorem C76_reset (σ : Trace → Bool) (dur : Nat → Nat → Nat) (s : St) (n : Nat) (hn : n < 124)
    (h0 : ∀ k, k < n → σ (s.trace ++ ups dur s.nd (k + 1)) = false) (h1 : σ (s.trace ++ ups dur s.nd (n + 1)) = true) :
    let extra := if level σ s then [] else [(Drive.up, dur (s.nd + (n + 1)) 60)]
    let i := s.nd + (n + 1) + extra.length
    (reset σ dur s).1 = !σ (s.trace ++ (ups dur s.nd (n + 1) ++ extra ++ [(.low, dur i 480), (.up, dur (i + 1) 70)])) ∧
    (reset σ dur s).2.trace = s.trace ++ (ups dur s.nd (n + 1) ++ extra ++ [(.low, dur i 480), (.up, dur (i + 1) 70), (.up, dur (i + 2) 410)]) ∧
    (reset σ dur s).2.irq = true ∧ (reset σ dur s).2.drive = .up := by
  have hr := resetLoop_ready σ dur n 125 { s with irq := false, drive := .up } rfl (by omega) h0 h1
  have hl : level σ { s with irq := false } = level σ s := rfl
  unfold reset
  dsimp only
  rw [hr, hl]
  dsimp only
  rw [if_neg (by simp)]
  generalize level σ s = bh
  cases bh
  · simp only [Bool.not_false, Bool.false_eq_true, if_true, if_false, wait, level, List.append_assoc, List.cons_append, List.nil_append, List.length_cons,
      List.length_nil, Nat.zero_add]
    exact ⟨trivial, trivial, trivial, trivial⟩
  · simp only [Bool.not_true, Bool.false_eq_true, if_true, if_false, wait, level, List.append_assoc, List.cons_append, List.nil_append, List.length_nil, Nat.add_zero]
    exact ⟨trivial, trivial, trivial, trivial⟩

/-- If the line stays low, the reset is given up: no pulse is sent and the result is false; but the interrupt of the pin is left disabled. -/
theorem C76_reset_stuck (σ : Trace → Bool) (dur : Nat → Nat → Nat) (s : St) (h : ∀ k, k < 124 → σ (s.trace ++ ups dur s.nd (k + 1)) = false) :
    (reset σ dur s).1 = false ∧ (reset σ dur s).2.trace = s.trace ++ ups dur s.nd 124 ∧ (reset σ dur s).2.irq = false := by
  have hr := resetLoop_stuck σ dur 124 { s with irq := false, drive := .up } rfl h
  unfold reset
  dsimp only
  rw [hr]
  exact ⟨rfl, rfl, rfl⟩

/-- A device answers a reset pulse of at least 480 µs: `p` after the line was released it pulls it low, for the time `q`. -/
def Presence (σ : Trace → Bool) (U p q : Nat) : Prop := ∀ tr l w, 480 * U ≤ l → σ (tr ++ [(.low, l), (.up, w)]) = !(decide (p ≤ w) && decide (w < p + q))

/-- A device (data sheet: 15 to 60 µs, then 60 to 240 µs) is noticed, and none is not; provided the delay of 480 µs is not short and that of 70 µs less
than 5 µs late. -/
theorem C76_presence_partial (U late : Nat) (σ : Trace → Bool) (dur : Nat → Nat → Nat) (hd : InTime U late dur) (hl : late < 5 * U)
    (h480 : ∀ i, 480 * U ≤ dur i 480) (s : St) (n : Nat) (hn : n < 124)
    (h0 : ∀ k, k < n → σ (s.trace ++ ups dur s.nd (k + 1)) = false) (h1 : σ (s.trace ++ ups dur s.nd (n + 1)) = true) :
    (∀ p q, 15 * U ≤ p → p ≤ 60 * U → 60 * U ≤ q → Presence σ U p q → (reset σ dur s).1 = true) ∧
    ((∀ tr l w, σ (tr ++ [(.low, l), (.up, w)]) = true) → (reset σ dur s).1 = false) := by
  obtain ⟨hr, -⟩ := C76_reset σ dur s n hn h0 h1
  generalize (if level σ s then [] else [(Drive.up, dur (s.nd + (n + 1)) 60)]) = extra at hr
  generalize s.nd + (n + 1) + extra.length = i at hr
  rw [← List.append_assoc] at hr
  have h70 := hd (i + 1) 70
  constructor
  · intro p q p1 p2 q1 hp
    rw [hr, hp _ _ _ (h480 i), decide_eq_true (by omega), decide_eq_true (by omega)]
    rfl
  · intro hp
    rw [hr, hp]
    rfl

/-! ## The hypotheses can be met -/

/-- Delays 0.1 µs late, in tenths of microseconds. -/
def exactly : Nat → Nat → Nat := fun _ n => 10 * n + 1

example : InTime 10 1 exactly := fun i n => by unfold exactly; omega

def start : St := ⟨[], .up, false, 0, false⟩

example : ∃ seg, (writeBytes exactly [0x44#8] start).trace = seg ∧ Slots 10 [false, false, true, false, false, false, true, false] seg := by
  obtain ⟨seg, h1, h2⟩ := C76_write_partial 10 1 exactly (by decide) (fun i n => by unfold exactly; omega) (by decide) [0x44#8] start
  refine ⟨seg, h1, ?_⟩
  have : [0x44#8].flatMap lsbFirst = [false, false, true, false, false, false, true, false] := by decide
  rw [this] at h2
  exact h2

/-- A device that sends these bits, holding zeros for 15 µs (`U` = 10). -/
def device (bits : List Bool) : Trace → Bool := fun tr =>
  let b := bits.getD ((tr.filter fun p => p.1 = .low).length - 1) true
  match tr.reverse with
  | (.up, w) :: (.low, l) :: _ => b || decide (150 ≤ l + w)
  | _ => true

theorem device_sends : ∀ (done bits : List Bool) (tr : Trace), (tr.filter fun p => p.1 = .low).length = done.length →
    Sends (device (done ++ bits)) tr (bits.map fun b => (b, 150)) := by
  intro done bits
  induction bits generalizing done with
  | nil => intro tr _; trivial
  | cons b bits ih =>
    intro tr h
    refine ⟨fun l w => ?_, fun l w x => ?_⟩
    · unfold device
      simp only [List.filter_append, List.length_append, h, List.reverse_append]
      simp
    · have := ih (done ++ [b]) (tr ++ [(.low, l), (.up, w), (.up, x)]) (by simp [List.filter_append, h])
      rw [List.append_assoc] at this
      exact this

/-- The two bytes of 25.0625 °C are read. -/
example : (readBytes (device (lsbFirst 0x91#8 ++ lsbFirst 0x01#8)) exactly 2 start).1 = [0x91#8, 0x01#8] := by decide +kernel

example : (readBytes (device (lsbFirst 0x91#8 ++ lsbFirst 0x01#8)) exactly 2 start).1.flatMap lsbFirst = lsbFirst 0x91#8 ++ lsbFirst 0x01#8 := by
  have := (C76_read_partial 10 1 (device (lsbFirst 0x91#8 ++ lsbFirst 0x01#8)) exactly (by decide) (fun i n => by unfold exactly; omega) (by decide) 2 start
    ((lsbFirst 0x91#8 ++ lsbFirst 0x01#8).map fun b => (b, 150)) rfl (device_sends [] _ [] rfl) (by decide)).1
  rw [this]
  decide

/-- The same device read with 2.5 µs of interruption in each delay: all ones. -/
example : (readBytes (device (lsbFirst 0x91#8 ++ lsbFirst 0x01#8)) (fun _ n => 10 * n + 25) 2 start).1 = [0xff#8, 0xff#8] := by decide +kernel

def present : Trace → Bool := fun tr =>
  match tr.reverse with
  | (.up, w) :: (.low, l) :: _ => !(decide (4800 ≤ l) && (decide (300 ≤ w) && decide (w < 1300)))
  | _ => true

example : (reset present exactly start).1 = true ∧ Presence present 10 300 1000 ∧ (reset (fun _ => true) exactly start).1 = false := by
  refine ⟨by decide, ?_, by decide⟩
  intro tr l w h
  unfold present
  simp only [List.reverse_append, List.reverse_cons, List.reverse_nil, List.nil_append, List.cons_append]
  rw [decide_eq_true (show 4800 ≤ l by omega)]
  rfl

/-- Shorted: the interrupt of the pin, enabled before, is disabled. -/
example : (reset (fun _ => false) exactly { start with irq := true }).1 = false ∧ (reset (fun _ => false) exactly { start with irq := true }).2.irq = false :=
  ⟨(C76_reset_stuck _ _ _ (fun _ _ => rfl)).1, (C76_reset_stuck _ _ _ (fun _ _ => rfl)).2.2⟩

end Verif.Wire.Bits
