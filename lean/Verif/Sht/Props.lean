import Verif.Sht.Spec

/-!
# C99: reading an SHT1x sensor
-/

namespace Verif.Sht

open Verif.Bytes

section
variable (script : Nat → Reading) (check : List Byte → Byte)

/-- The level `shiftOut` puts out. -/
def levelOf (val : Byte) (i : Nat) : Bool := decide (val.setWidth 32 &&& 1#32 <<< (7 - i) ≠ 0#32)

/-- A turn of `shiftOut` while the sensor takes over a command. -/
theorem turn_command (val : Byte) (i n : Nat) (bits : Byte) (l o : Bool) (st : Byte) (m k : Nat) :
    shiftOutTurn (chip script check) val ⟨⟨false, l, .command n bits, st, m⟩, o, true, false, k⟩ i =
      ⟨⟨false, levelOf val i && !(n + 1 = 8 && known (shifted bits (levelOf val i))),
        if n + 1 = 8 then (if known (shifted bits (levelOf val i)) then
          Phase.ack (shifted bits (levelOf val i)) else .idle)
        else .command (n + 1) (shifted bits (levelOf val i)), st, m⟩,
        levelOf val i, true, false, k⟩ := by
  have hb : shiftOutBit .msbFirst val i = [.data (levelOf val i), .clock true, .clock false] := rfl
  unfold shiftOutTurn
  rw [hb]
  generalize levelOf val i = b
  simp only [List.foldl_cons, List.foldl_nil, setData, setClock, settle, World.free, chip,
    Chip.lines, Chip.pull, Chip.rise, Chip.fall]
  cases hk : known (shifted bits b) <;> cases b <;> by_cases h : n + 1 = 8 <;> cases l <;>
    simp [h, hk]

/-- A turn of `shiftOut` while the sensor takes over a status. -/
theorem turn_status (val : Byte) (i n : Nat) (bits : Byte) (l o : Bool) (st : Byte) (m k : Nat) :
    shiftOutTurn (chip script check) val ⟨⟨false, l, .status n bits, st, m⟩, o, true, false, k⟩ i =
      ⟨⟨false, levelOf val i && !decide (n + 1 = 8),
        if n + 1 = 8 then Phase.statusAck (shifted bits (levelOf val i))
        else .status (n + 1) (shifted bits (levelOf val i)), st, m⟩,
        levelOf val i, true, false, k⟩ := by
  have hb : shiftOutBit .msbFirst val i = [.data (levelOf val i), .clock true, .clock false] := rfl
  unfold shiftOutTurn
  rw [hb]
  generalize levelOf val i = b
  simp only [List.foldl_cons, List.foldl_nil, setData, setClock, settle, World.free, chip,
    Chip.lines, Chip.pull, Chip.rise, Chip.fall]
  cases b <;> by_cases h : n + 1 = 8 <;> cases l <;> simp [h]

/-- The bits `shiftOut` sends, put together again. -/
theorem shifted_all (val : Byte) :
    (List.range 8).foldl (fun b i => shifted b (levelOf val i)) 0#8 = val := by
  revert val
  decide +kernel

theorem shiftOut_command (val : Byte) (l o : Bool) (st : Byte) (m k : Nat) (hk : known val = true) :
    ∃ b, shiftOut (chip script check) val ⟨⟨false, l, .command 0 0#8, st, m⟩, o, true, false, k⟩ =
      ⟨⟨false, false, .ack val, st, m⟩, b, true, false, k⟩ := by
  have h8 : List.range 8 = [0, 1, 2, 3, 4, 5, 6, 7] := rfl
  have hs := shifted_all val
  rw [h8] at hs
  simp only [List.foldl_cons, List.foldl_nil] at hs
  refine ⟨levelOf val 7, ?_⟩
  unfold shiftOut
  rw [h8]
  simp only [List.foldl_cons, List.foldl_nil, turn_command, Nat.reduceAdd, Nat.reduceEqDiff,
    if_true, if_false]
  rw [hs, hk]
  simp

theorem shiftOut_status (val : Byte) (l o : Bool) (st : Byte) (m k : Nat) :
    ∃ b, shiftOut (chip script check) val ⟨⟨false, l, .status 0 0#8, st, m⟩, o, true, false, k⟩ =
      ⟨⟨false, false, .statusAck val, st, m⟩, b, true, false, k⟩ := by
  have h8 : List.range 8 = [0, 1, 2, 3, 4, 5, 6, 7] := rfl
  have hs := shifted_all val
  rw [h8] at hs
  simp only [List.foldl_cons, List.foldl_nil] at hs
  refine ⟨levelOf val 7, ?_⟩
  unfold shiftOut
  rw [h8]
  simp only [List.foldl_cons, List.foldl_nil, turn_status, Nat.reduceAdd, Nat.reduceEqDiff,
    if_true, if_false]
  rw [hs]
  simp

theorem activate_idle (out dir : Bool) (st : Byte) (m k : Nat) :
    sendTransmissionStart (chip script check) (activateDataPin (chip script check)
      ⟨⟨false, true, .idle, st, m⟩, out, dir, false, k⟩) =
      ⟨⟨false, true, .command 0 0#8, st, m⟩, true, true, false, k⟩ := by
  have a : activateDataPin (chip script check)
      ⟨⟨false, true, .idle, st, m⟩, out, dir, false, k⟩ =
      ⟨⟨false, true, .idle, st, m⟩, true, true, false, k⟩ := by cases out <;> cases dir <;> rfl
  have s1 : setData (chip script check) true ⟨⟨false, true, .idle, st, m⟩, true, true, false, k⟩ =
      ⟨⟨false, true, .idle, st, m⟩, true, true, false, k⟩ := rfl
  have s2 : setClock (chip script check) true ⟨⟨false, true, .idle, st, m⟩, true, true, false, k⟩ =
      ⟨⟨true, true, .idle, st, m⟩, true, true, true, k⟩ := rfl
  have s3 : setData (chip script check) false ⟨⟨true, true, .idle, st, m⟩, true, true, true, k⟩ =
      ⟨⟨true, false, .start0, st, m⟩, false, true, true, k⟩ := rfl
  have s4 : setClock (chip script check) false
      ⟨⟨true, false, .start0, st, m⟩, false, true, true, k⟩ =
      ⟨⟨false, false, .start1, st, m⟩, false, true, false, k⟩ := rfl
  have s5 : setClock (chip script check) true
      ⟨⟨false, false, .start1, st, m⟩, false, true, false, k⟩ =
      ⟨⟨true, false, .start2, st, m⟩, false, true, true, k⟩ := rfl
  have s6 : setData (chip script check) true
      ⟨⟨true, false, .start2, st, m⟩, false, true, true, k⟩ =
      ⟨⟨true, true, .command 0 0#8, st, m⟩, true, true, true, k⟩ := rfl
  have s7 : setClock (chip script check) false
      ⟨⟨true, true, .command 0 0#8, st, m⟩, true, true, true, k⟩ =
      ⟨⟨false, true, .command 0 0#8, st, m⟩, true, true, false, k⟩ := rfl
  unfold sendTransmissionStart
  dsimp only
  rw [a, s1, s2, s3, s4, s5, s6, s7]

theorem activate_status (l out : Bool) (st : Byte) (m k : Nat) :
    activateDataPin (chip script check) ⟨⟨false, l, .status 0 0#8, st, m⟩, out, false, false, k⟩ =
      ⟨⟨false, true, .status 0 0#8, st, m⟩, true, true, false, k⟩ := by
  cases out <;> rfl

/-- The nine clocks of a command: what follows is the end of `sendByteToSHT`. -/
theorem send_command (dur : Nat → Nat → Nat) (c : Byte) (hk : known c = true)
    (out dir : Bool) (st : Byte) (m k : Nat) :
    ∃ b, sendByteToSHT (chip script check) dur c true
      ⟨⟨false, true, .idle, st, m⟩, out, dir, false, k⟩ =
      waitHigh (chip script check) dur 25
        (setClock (chip script check) false
          ⟨⟨true, false, .ack c, st, m⟩, b, false, true, k⟩) := by
  obtain ⟨b, hb⟩ := shiftOut_command script check c true true st m k hk
  refine ⟨b, ?_⟩
  unfold sendByteToSHT
  dsimp only
  rw [if_pos rfl, activate_idle, hb]
  have s1 : releaseDataPin (chip script check) ⟨⟨false, false, .ack c, st, m⟩, b, true, false, k⟩ =
      ⟨⟨false, false, .ack c, st, m⟩, b, false, false, k⟩ := rfl
  have s2 : setClock (chip script check) true ⟨⟨false, false, .ack c, st, m⟩, b, false, false, k⟩ =
      ⟨⟨true, false, .ack c, st, m⟩, b, false, true, k⟩ := rfl
  have s3 : readData (chip script check) ⟨⟨true, false, .ack c, st, m⟩, b, false, true, k⟩ =
      false := rfl
  rw [s1, s2, s3, if_neg Bool.false_ne_true]

theorem send_status (dur : Nat → Nat → Nat) (v : Byte) (l out : Bool) (st : Byte) (m k : Nat) :
    ∃ b, sendByteToSHT (chip script check) dur v false
      ⟨⟨false, l, .status 0 0#8, st, m⟩, out, false, false, k⟩ =
      (⟨⟨false, true, .idle, v, m⟩, b, false, false, k⟩, true) := by
  obtain ⟨b, hb⟩ := shiftOut_status script check v true true st m k
  refine ⟨b, ?_⟩
  unfold sendByteToSHT
  dsimp only
  rw [if_neg Bool.false_ne_true, activate_status, hb]
  have s1 : releaseDataPin (chip script check) ⟨⟨false, false, .statusAck v, st, m⟩, b, true, false, k⟩ =
      ⟨⟨false, false, .statusAck v, st, m⟩, b, false, false, k⟩ := rfl
  have s2 : setClock (chip script check) true ⟨⟨false, false, .statusAck v, st, m⟩, b, false, false, k⟩ =
      ⟨⟨true, false, .statusAck v, st, m⟩, b, false, true, k⟩ := rfl
  have s3 : readData (chip script check) ⟨⟨true, false, .statusAck v, st, m⟩, b, false, true, k⟩ =
      false := rfl
  have s4 : setClock (chip script check) false ⟨⟨true, false, .statusAck v, st, m⟩, b, false, true, k⟩ =
      ⟨⟨false, true, .idle, v, m⟩, b, false, false, k⟩ := rfl
  have s5 : readData (chip script check) ⟨⟨false, true, .idle, v, m⟩, b, false, false, k⟩ =
      true := rfl
  rw [s1, s2, s3, if_neg Bool.false_ne_true, s4, waitHigh, s5, if_pos rfl]

/-- The wait for DATA to rise. -/
theorem waitHigh_measuring (dur : Nat → Nat → Nat) (hd : Delays dur) (result : List Byte)
    (st : Byte) (m : Nat) (out l : Bool) : ∀ (n low left k : Nat), low ≤ 3998 * n →
    (low = 0 ∧ 0 < left ∨ low + 5000 ≤ left) →
    ∃ left' k', 0 < left' ∧ left' ≤ left ∧
    waitHigh (chip script check) dur (n + 1)
      ⟨⟨false, l, .measuring low left result, st, m⟩, out, false, false, k⟩ =
      (⟨⟨false, l, .measuring 0 left' result, st, m⟩, out, false, false, k'⟩, true) := by
  intro n
  induction n with
  | zero =>
    intro low left k h1 h2
    obtain rfl : low = 0 := by omega
    exact ⟨left, k, by omega, Nat.le_refl _, rfl⟩
  | succ n ih =>
    intro low left k h1 h2
    by_cases h0 : low = 0
    · subst h0
      exact ⟨left, k, by omega, Nat.le_refl _, rfl⟩
    · obtain ⟨d1, d2, d3⟩ := hd k
      obtain ⟨left', k', q1, q2, q3⟩ := ih (low - dur k 4000) (left - dur k 4000) (k + 1)
        (by omega) (by omega)
      refine ⟨left', k', q1, by omega, ?_⟩
      rw [waitHigh]
      have hr : readData (chip script check)
          ⟨⟨false, l, .measuring low left result, st, m⟩, out, false, false, k⟩ = false := by
        simp [readData, chip, Chip.pull, World.free]
        omega
      rw [hr, if_neg (by decide)]
      have hp : pass (chip script check) dur 4000
          ⟨⟨false, l, .measuring low left result, st, m⟩, out, false, false, k⟩ =
          ⟨⟨false, l, .measuring (low - dur k 4000) (left - dur k 4000) result, st, m⟩, out, false,
            false, k + 1⟩ := by
        simp only [pass, chip, Chip.wait]
        rw [if_neg (by omega)]
      rw [hp]
      exact q3

/-- The wait for the result. -/
theorem waitLow_measuring (dur : Nat → Nat → Nat) (hd : Delays dur) (b : Byte) (rest : List Byte)
    (hb : b.getLsbD 7 = false)
    (st : Byte) (m : Nat) (out l : Bool) : ∀ (n left k : Nat), 0 < left → left ≤ 19000 * n →
    ∃ k', waitLow (chip script check) dur (n + 1)
      ⟨⟨false, l, .measuring 0 left (b :: rest), st, m⟩, out, false, false, k⟩ =
      (⟨⟨false, l, .sending (bitsOf b) rest, st, m⟩, out, false, false, k'⟩, true) := by
  intro n
  induction n with
  | zero => intro left k h0 h1; omega
  | succ n ih =>
    intro left k h0 h1
    obtain ⟨d1, d2, d3⟩ := hd k
    rw [waitLow]
    have hr : readData (chip script check)
        ⟨⟨false, l, .measuring 0 left (b :: rest), st, m⟩, out, false, false, k⟩ = true := rfl
    rw [hr, if_pos rfl]
    by_cases h : left ≤ dur k 20000
    · have hp : pass (chip script check) dur 20000
          ⟨⟨false, l, .measuring 0 left (b :: rest), st, m⟩, out, false, false, k⟩ =
          ⟨⟨false, l, .sending (bitsOf b) rest, st, m⟩, out, false, false, k + 1⟩ := by
        simp only [pass, chip, Chip.wait]
        rw [if_pos h]
        rfl
      rw [hp]
      refine ⟨k + 1, ?_⟩
      rw [waitLow]
      have hr : readData (chip script check)
          ⟨⟨false, l, .sending (bitsOf b) rest, st, m⟩, out, false, false, k + 1⟩ = false := by
        show (true && !(!b.getLsbD 7)) = false
        rw [hb]
        rfl
      rw [hr, if_neg (by decide)]
    · have hp : pass (chip script check) dur 20000
          ⟨⟨false, l, .measuring 0 left (b :: rest), st, m⟩, out, false, false, k⟩ =
          ⟨⟨false, l, .measuring 0 (left - dur k 20000) (b :: rest), st, m⟩, out, false, false,
            k + 1⟩ := by
        simp only [pass, chip, Chip.wait]
        rw [if_neg h, Nat.zero_sub]
      rw [hp]
      exact ih _ _ (by omega) (by omega)

/-- Reading a byte. -/
theorem shiftIn_sending (b : Byte) (rest : List Byte) (st : Byte) (m k : Nat) (out l : Bool) :
    shiftIn (chip script check) ⟨⟨false, l, .sending (bitsOf b) rest, st, m⟩, out, false, false, k⟩ =
      (⟨⟨false, true, .sent rest, st, m⟩, out, false, false, k⟩, b) := by
  have hb : bitsOf b = [b.getLsbD 7, b.getLsbD 6, b.getLsbD 5, b.getLsbD 4, b.getLsbD 3,
    b.getLsbD 2, b.getLsbD 1, b.getLsbD 0] := rfl
  have hv : (shiftInBit .msbFirst (shiftInBit .msbFirst (shiftInBit .msbFirst (shiftInBit .msbFirst
      (shiftInBit .msbFirst (shiftInBit .msbFirst (shiftInBit .msbFirst (shiftInBit .msbFirst 0#32
      0 (b.getLsbD 7)) 1 (b.getLsbD 6)) 2 (b.getLsbD 5)) 3 (b.getLsbD 4)) 4 (b.getLsbD 3)) 5
      (b.getLsbD 2)) 6 (b.getLsbD 1)) 7 (b.getLsbD 0)).setWidth 8 = b := by
    revert b
    decide +kernel
  have h8 : List.range 8 = [0, 1, 2, 3, 4, 5, 6, 7] := rfl
  have turn : ∀ (a c : Bool) (bs : List Bool) (v : BitVec 32) (i : Nat) (l : Bool),
      shiftInTurn (chip script check)
        (⟨⟨false, l, .sending (a :: c :: bs) rest, st, m⟩, out, false, false, k⟩, v) i =
        (⟨⟨false, c, .sending (c :: bs) rest, st, m⟩, out, false, false, k⟩,
          shiftInBit .msbFirst v i a) := by
    intro a c bs v i l
    cases a <;> cases c <;> rfl
  have final : ∀ (a : Bool) (v : BitVec 32) (i : Nat) (l : Bool),
      shiftInTurn (chip script check)
        (⟨⟨false, l, .sending [a] rest, st, m⟩, out, false, false, k⟩, v) i =
        (⟨⟨false, true, .sent rest, st, m⟩, out, false, false, k⟩,
          shiftInBit .msbFirst v i a) := by
    intro a v i l
    cases a <;> rfl
  unfold shiftIn
  rw [h8, hb]
  simp only [List.foldl_cons, List.foldl_nil, turn, final]
  rw [hv]

/-- Reading two bytes and skipping the third. -/
theorem getData (b0 b1 b2 : Byte) (st : Byte) (m k : Nat) (out l : Bool) :
    ∃ (out' : Bool) (w : World Chip), getData16SHT (chip script check)
        ⟨⟨false, l, .sending (bitsOf b0) [b1, b2], st, m⟩, out, false, false, k⟩ =
      (w, b0.setWidth 16 <<< 8 ||| b1.setWidth 16) ∧
      skipCrcSHT (chip script check) w =
        ⟨⟨false, true, .idle, st, m⟩, out', false, false, k⟩ := by
  have h1 : releaseDataPin (chip script check)
      ⟨⟨false, l, .sending (bitsOf b0) [b1, b2], st, m⟩, out, false, false, k⟩ =
      ⟨⟨false, b0.getLsbD 7, .sending (bitsOf b0) [b1, b2], st, m⟩, out, false, false, k⟩ := by
    show (⟨⟨false, true && !(!b0.getLsbD 7), _, st, m⟩, out, false, false, k⟩ : World Chip) = _
    cases b0.getLsbD 7 <;> rfl
  have h2 : releaseDataPin (chip script check) (clockCycle (chip script check)
      (setData (chip script check) false (activateDataPin (chip script check)
        ⟨⟨false, true, .sent [b1, b2], st, m⟩, out, false, false, k⟩))) =
      ⟨⟨false, b1.getLsbD 7, .sending (bitsOf b1) [b2], st, m⟩, false, false, false, k⟩ := by
    cases out
    all_goals
      show (⟨⟨false, true && !(!b1.getLsbD 7), _, st, m⟩, _, false, false, k⟩ : World Chip) = _
      cases b1.getLsbD 7 <;> rfl
  unfold getData16SHT
  dsimp only
  rw [h1, shiftIn_sending]
  dsimp only
  rw [h2, shiftIn_sending]
  exact ⟨true, _, rfl, rfl⟩

/-- A measurement. -/
theorem measure_chip (dur : Nat → Nat → Nat) (hd : Delays dur) (hc : Conforming script) (c : Byte)
    (out : Bool) (st : Byte) (m k : Nat) (v : Nat)
    (hv : (c = 0x03#8 ∧ v = (script m).temperature) ∨ (c = 0x05#8 ∧ v = (script m).humidity)) :
    ∃ out' k', measure (chip script check) dur c
      ⟨⟨false, true, .idle, st, m⟩, out, false, false, k⟩ =
      (⟨⟨false, true, .idle, st, m + 1⟩, out', false, false, k'⟩, some (BitVec.ofNat 16 v)) := by
  obtain ⟨ht, hh, hl, hm, hx⟩ := hc m
  have hv14 : v < 16384 := by
    rcases hv with ⟨_, e⟩ | ⟨_, e⟩ <;> omega
  have hk : known c = true := by
    rcases hv with ⟨e, _⟩ | ⟨e, _⟩ <;> rw [e] <;> rfl
  obtain ⟨b, hb⟩ := send_command script check dur c hk out false st m k
  obtain ⟨chk, hchk⟩ : ∃ chk, setClock (chip script check) false
      ⟨⟨true, false, .ack c, st, m⟩, b, false, true, k⟩ =
      ⟨⟨false, decide ((script m).low = 0), .measuring (script m).low (script m).time
        (resultOf v chk), st, m + 1⟩, b, false, false, k⟩ := by
    have hlow : (true && !decide (0 < (script m).low)) = decide ((script m).low = 0) := by
      cases (script m).low <;> simp
    rcases hv with ⟨e, e'⟩ | ⟨e, e'⟩
    · subst e e'
      exact ⟨_, by rw [← hlow]; rfl⟩
    · subst e e'
      exact ⟨_, by rw [← hlow]; rfl⟩
  obtain ⟨left', k1, q1, q2, q3⟩ := waitHigh_measuring script check dur hd (resultOf v chk) st
    (m + 1) b (decide ((script m).low = 0)) 24 (script m).low (script m).time k (by omega) (.inr hm)
  have htop : (BitVec.ofNat 8 (v / 256)).getLsbD 7 = false := by
    have h64 : ∀ n : Fin 64, (BitVec.ofNat 8 n.val).getLsbD 7 = false := by decide
    exact h64 ⟨v / 256, by omega⟩
  obtain ⟨k2, r⟩ := waitLow_measuring script check dur hd (BitVec.ofNat 8 (v / 256))
    [BitVec.ofNat 8 (v % 256), chk] htop st (m + 1) b true 17 left' k1 q1 (by omega)
  obtain ⟨out', w, g1, g2⟩ := getData script check (BitVec.ofNat 8 (v / 256)) (BitVec.ofNat 8 (v % 256)) chk
    st (m + 1) k2 b true
  refine ⟨out', k2, ?_⟩
  unfold measure
  rw [hb, hchk, q3]
  dsimp only
  rw [if_pos rfl]
  have hrel : releaseDataPin (chip script check)
      ⟨⟨false, decide ((script m).low = 0), .measuring 0 left' (resultOf v chk), st, m + 1⟩, b,
        false, false, k1⟩ =
      ⟨⟨false, true, .measuring 0 left' (resultOf v chk), st, m + 1⟩, b, false, false, k1⟩ := rfl
  unfold waitForResultSHT
  rw [hrel]
  have r' : waitLow (chip script check) dur (340 / 20 + 1)
      ⟨⟨false, true, .measuring 0 left' (resultOf v chk), st, m + 1⟩, b, false, false, k1⟩ = _ := r
  rw [r']
  dsimp only
  rw [if_pos rfl]
  rw [g1]
  dsimp only
  rw [g2]
  refine Prod.ext rfl (congrArg some ?_)
  apply BitVec.eq_of_toNat_eq
  rw [BitVec.toNat_or, BitVec.toNat_shiftLeft, BitVec.toNat_setWidth, BitVec.toNat_setWidth,
    BitVec.toNat_ofNat, BitVec.toNat_ofNat, BitVec.toNat_ofNat, Nat.shiftLeft_eq]
  have e1 : v / 256 % 2 ^ 8 % 2 ^ 16 * 2 ^ 8 % 2 ^ 16 = 2 ^ 8 * (v / 256) := by omega
  have e2 : v % 256 % 2 ^ 8 % 2 ^ 16 = v % 256 := by omega
  rw [e1, e2, ← Nat.two_pow_add_eq_or_of_lt (by omega)]
  omega

/-- The sensor waits for a command, and the pins are at rest. -/
def Rest (w : World Chip) : Prop :=
  w.dir = false ∧ w.clk = false ∧ w.dev.clk = false ∧ w.dev.line = true ∧ w.dev.phase = .idle

theorem rest_form (w : World Chip) (h : Rest w) :
    w = ⟨⟨false, true, .idle, w.dev.status, w.dev.count⟩, w.out, false, false, w.waits⟩ := by
  obtain ⟨⟨c, l, p, st, m⟩, o, d, k, n⟩ := w
  obtain ⟨h1, h2, h3, h4, h5⟩ := h
  dsimp only at h1 h2 h3 h4 h5
  subst h1 h2 h3 h4 h5
  rfl

theorem rest_measure (dur : Nat → Nat → Nat) (hd : Delays dur) (hc : Conforming script)
    (w : World Chip) (hw : Rest w) (c : Byte) (v : Nat)
    (hv : (c = 0x03#8 ∧ v = (script w.dev.count).temperature) ∨
      (c = 0x05#8 ∧ v = (script w.dev.count).humidity)) :
    ∃ w', measure (chip script check) dur c w = (w', some (BitVec.ofNat 16 v)) ∧ Rest w' ∧
      w'.dev.count = w.dev.count + 1 ∧ w'.dev.status = w.dev.status := by
  obtain ⟨o', k', h⟩ := measure_chip script check dur hd hc c w.out w.dev.status w.dev.count w.waits v hv
  rw [← rest_form w hw] at h
  exact ⟨_, h, ⟨rfl, rfl, rfl, rfl, rfl⟩, rfl, rfl⟩

theorem rest_reset (dur : Nat → Nat → Nat) (w : World Chip) (hw : Rest w) :
    ∃ w', softReset (chip script check) dur w = (w', true) ∧ Rest w' ∧
      w'.dev.count = w.dev.count ∧ w'.dev.status = 0#8 := by
  obtain ⟨b, h⟩ := send_command script check dur 0x1e#8 rfl w.out false w.dev.status w.dev.count w.waits
  rw [← rest_form w hw] at h
  have s1 : setClock (chip script check) false
      ⟨⟨true, false, .ack 0x1e#8, w.dev.status, w.dev.count⟩, b, false, true, w.waits⟩ =
      ⟨⟨false, true, .idle, 0#8, w.dev.count⟩, b, false, false, w.waits⟩ := rfl
  have s2 : readData (chip script check)
      ⟨⟨false, true, .idle, 0#8, w.dev.count⟩, b, false, false, w.waits⟩ = true := rfl
  rw [s1, waitHigh, s2, if_pos rfl] at h
  exact ⟨_, h, ⟨rfl, rfl, rfl, rfl, rfl⟩, rfl, rfl⟩

theorem rest_status (dur : Nat → Nat → Nat) (v : Word) (w : World Chip) (hw : Rest w) :
    ∃ w', setStatusRegister (chip script check) dur v w = (w', true) ∧ Rest w' ∧
      w'.dev.count = w.dev.count ∧ w'.dev.status = v.setWidth 8 := by
  obtain ⟨b, h⟩ := send_command script check dur 0x06#8 rfl w.out false w.dev.status w.dev.count w.waits
  rw [← rest_form w hw] at h
  have s1 : setClock (chip script check) false
      ⟨⟨true, false, .ack 0x06#8, w.dev.status, w.dev.count⟩, b, false, true, w.waits⟩ =
      ⟨⟨false, true, .status 0 0#8, w.dev.status, w.dev.count⟩, b, false, false, w.waits⟩ := rfl
  have s2 : readData (chip script check)
      ⟨⟨false, true, .status 0 0#8, w.dev.status, w.dev.count⟩, b, false, false, w.waits⟩ = true := rfl
  rw [s1, waitHigh, s2, if_pos rfl] at h
  obtain ⟨b', g⟩ := send_status script check dur (v.setWidth 8) true b w.dev.status w.dev.count w.waits
  refine ⟨⟨⟨false, true, .idle, v.setWidth 8, w.dev.count⟩, b', false, false, w.waits⟩, ?_,
    ⟨rfl, rfl, rfl, rfl, rfl⟩, rfl, rfl⟩
  unfold setStatusRegister
  rw [h]
  dsimp only
  rw [if_pos rfl]
  exact g

/-- 14 bits are a nonnegative number of type `int16_t`. -/
theorem toInt_small (v : Nat) (h : v < 2 ^ 14) : (BitVec.ofNat 16 v).toInt = v := by
  rw [BitVec.toInt_eq_toNat_of_lt] <;> rw [BitVec.toNat_ofNat] <;> omega

theorem rest_raw (dur : Nat → Nat → Nat) (hd : Delays dur) (hc : Conforming script)
    (s : Sensor Chip) (hs : Rest s.world) :
    ∃ w', readTemperatureRaw (chip script check) dur s =
      (⟨w', some (-27300), s.lastHumidity⟩, some ((script s.world.dev.count).temperature : Int)) ∧
      Rest w' ∧ w'.dev.count = s.world.dev.count + 1 ∧ w'.dev.status = s.world.dev.status := by
  obtain ⟨w', h, r, e1, e2⟩ := rest_measure script check dur hd hc s.world hs 0x03#8 _ (.inl ⟨rfl, rfl⟩)
  refine ⟨w', ?_, r, e1, e2⟩
  unfold readTemperatureRaw
  dsimp only
  rw [h]
  dsimp only [Option.map]
  rw [toInt_small _ (hc _).1]

variable {α : Type} (A : Gas.Arith α)

theorem rest_celsius (dur : Nat → Nat → Nat) (hd : Delays dur) (hc : Conforming script)
    (s : Sensor Chip) (hs : Rest s.world) :
    ∃ w', readTemperatureC (chip script check) A dur s =
      (⟨w', toInt16 A (A.mul (celsius A (script s.world.dev.count).temperature) (A.ofInt 100)),
        s.lastHumidity⟩, some (celsius A (script s.world.dev.count).temperature)) ∧
      Rest w' ∧ w'.dev.count = s.world.dev.count + 1 ∧ w'.dev.status = s.world.dev.status := by
  obtain ⟨w', h, r, e1, e2⟩ := rest_raw script check dur hd hc s hs
  refine ⟨w', ?_, r, e1, e2⟩
  unfold readTemperatureC
  rw [h]
  rfl

theorem rest_humidity (dur : Nat → Nat → Nat) (hd : Delays dur) (hc : Conforming script)
    (s : Sensor Chip) (hs : Rest s.world) :
    ∃ w', readHumidity (chip script check) A dur s =
      (⟨w', toInt16 A (A.mul (celsius A (script s.world.dev.count).temperature) (A.ofInt 100)),
        toUInt16 A (A.mul (humidityOf A (celsius A (script s.world.dev.count).temperature)
          (script (s.world.dev.count + 1)).humidity) (A.ofInt 100))⟩,
        some (humidityOf A (celsius A (script s.world.dev.count).temperature)
          (script (s.world.dev.count + 1)).humidity)) ∧
      Rest w' ∧ w'.dev.count = s.world.dev.count + 2 ∧ w'.dev.status = s.world.dev.status := by
  obtain ⟨w1, h1, r1, c1, e1⟩ := rest_celsius script check A dur hd hc
    { s with lastHumidity := some 0 } hs
  obtain ⟨w2, h2, r2, c2, e2⟩ := rest_measure script check dur hd hc w1 r1 0x05#8 _ (.inr ⟨rfl, rfl⟩)
  refine ⟨w2, ?_, r2, by rw [c2, c1], by rw [e2, e1]⟩
  unfold readHumidity
  dsimp only
  rw [h1]
  dsimp only
  rw [h2]
  dsimp only
  have hn : (BitVec.ofNat 16 (script w1.dev.count).humidity).toNat = (script w1.dev.count).humidity := by
    rw [BitVec.toNat_ofNat]
    have := (hc w1.dev.count).2.1
    omega
  rw [hn, c1]

/-- A call. -/
theorem rest_call (dur : Nat → Nat → Nat) (hd : Delays dur) (hc : Conforming script)
    (s : Sensor Chip) (hs : Rest s.world) (c : Call) :
    Rest (s.call (chip script check) A dur c).1.world ∧
      (s.call (chip script check) A dur c).1.view = (s.view.call A script c).1 ∧
      (s.call (chip script check) A dur c).2 = (s.view.call A script c).2 := by
  cases c with
  | readTemperatureC =>
    obtain ⟨w', h, r, e1, e2⟩ := rest_celsius script check A dur hd hc s hs
    simp only [Sensor.call, h, View.call, Sensor.view, e1, e2]
    exact ⟨r, trivial, trivial⟩
  | readTemperatureF =>
    obtain ⟨w', h, r, e1, e2⟩ := rest_raw script check dur hd hc s hs
    simp only [Sensor.call, readTemperatureF, h, View.call, Sensor.view, e1, e2]
    exact ⟨r, rfl, rfl⟩
  | readHumidity =>
    obtain ⟨w', h, r, e1, e2⟩ := rest_humidity script check A dur hd hc s hs
    simp only [Sensor.call, h, View.call, Sensor.view, e1, e2]
    exact ⟨r, trivial, trivial⟩
  | getTemperature =>
    obtain ⟨w', h, r, e1, e2⟩ := rest_celsius script check A dur hd hc s hs
    simp only [Sensor.call, GetTemperature, h, View.call, Sensor.view, e1, e2]
    exact ⟨r, trivial, trivial⟩
  | getHumidity =>
    obtain ⟨w', h, r, e1, e2⟩ := rest_humidity script check A dur hd hc s hs
    simp only [Sensor.call, GetHumidity, h, View.call, Sensor.view, e1, e2]
    exact ⟨r, trivial, trivial⟩
  | softReset =>
    obtain ⟨w', h, r, e1, e2⟩ := rest_reset script check dur s.world hs
    simp only [Sensor.call, h, View.call, Sensor.view, e1, e2]
    exact ⟨r, trivial, trivial⟩
  | setStatusRegister v =>
    obtain ⟨w', h, r, e1, e2⟩ := rest_status script check dur v s.world hs
    simp only [Sensor.call, h, View.call, Sensor.view, e1, e2]
    exact ⟨r, trivial, trivial⟩

theorem rest_calls (dur : Nat → Nat → Nat) (hd : Delays dur) (hc : Conforming script)
    (cs : List Call) : ∀ s : Sensor Chip, Rest s.world →
    (s.calls (chip script check) A dur cs).1.view = (s.view.calls A script cs).1 ∧
      (s.calls (chip script check) A dur cs).2 = (s.view.calls A script cs).2 := by
  induction cs with
  | nil => intro s _; exact ⟨rfl, rfl⟩
  | cons c cs ih =>
    intro s hs
    obtain ⟨r, h1, h2⟩ := rest_call script check A dur hd hc s hs c
    obtain ⟨g1, g2⟩ := ih _ r
    simp only [Sensor.calls, View.calls]
    rw [← h1, ← h2]
    exact ⟨g1, by rw [g2]⟩

/-! ## The property -/

/-- **C99.** On a sensor as in the data sheet, with every sequence of measured values and delays,
every history of calls gives the answers the user expects: each temperature is made from the next
temperature the sensor measured, each humidity from the next humidity and the temperature
measured before it; no call fails, and the status register is the low byte written last. -/
theorem C99_history (dur : Nat → Nat → Nat) (hd : Delays dur) (hc : Conforming script)
    (dev : Chip) (hdev : dev.phase = .idle) (out : Bool) (cs : List Call) :
    let s := (Sensor.new (chip script check) dev out).calls (chip script check) A dur cs
    let v := (View.mk dev.count dev.status (some (-27300)) (some 0)).calls A script cs
    s.1.view = v.1 ∧ s.2 = v.2 := by
  obtain ⟨clk, line, phase, st, m⟩ := dev
  dsimp only at hdev
  subst hdev
  have hn : Sensor.new (chip script check) ⟨clk, line, .idle, st, m⟩ out =
      ⟨⟨⟨false, true, .idle, st, m⟩, out, false, false, 0⟩, some (-27300), some 0⟩ := by
    cases clk <;> cases line <;> rfl
  dsimp only
  rw [hn]
  exact rest_calls script check A dur hd hc cs _ ⟨rfl, rfl, rfl, rfl, rfl⟩

/-- **C99.** Without a sensor (nothing ever pulls DATA) every call fails: the temperature is
-273 degrees, the humidity 0, and the functions with a result of type `bool` return `false`. -/
theorem C99_no_sensor {σ : Type} (D : Device σ) (hD : ∀ s, D.pull s = false)
    (dur : Nat → Nat → Nat) (s : Sensor σ) (v : Word) :
    (s.call D A dur .readTemperatureC).2 = .float none ∧
    (s.call D A dur .readTemperatureF).2 = .float none ∧
    (s.call D A dur .readHumidity).2 = .float none ∧
    (s.call D A dur .getTemperature).2 = .int (some (-27300)) ∧
    (s.call D A dur .getHumidity).2 = .int (some 0) ∧
    (s.call D A dur .softReset).2 = .bool false ∧
    (s.call D A dur (.setStatusRegister v)).2 = .bool false ∧
    (getStatusRegister D dur s.world).2 = none := by
  have hs : ∀ c b (w : World σ), (sendByteToSHT D dur c b w).2 = false := by
    intro c b w
    unfold sendByteToSHT
    dsimp only
    rw [if_pos (by simp [readData, hD, World.free, setClock, settle, releaseDataPin])]
  have hm : ∀ c (w : World σ), (measure D dur c w).2 = none := by
    intro c w
    unfold measure
    have := hs c true w
    generalize sendByteToSHT D dur c true w = p at this
    obtain ⟨w', ok⟩ := p
    dsimp only at this
    subst this
    rfl
  have ht : ∀ s : Sensor σ, ∃ s', readTemperatureC D A dur s = (s', none) := by
    intro s
    unfold readTemperatureC readTemperatureRaw
    dsimp only
    have := hm 0x03#8 s.world
    generalize measure D dur 0x03#8 s.world = p at this
    obtain ⟨w', r⟩ := p
    dsimp only at this
    subst this
    exact ⟨_, rfl⟩
  have hh : ∃ s', readHumidity D A dur s = (s', none) := by
    unfold readHumidity
    dsimp only
    obtain ⟨s', h⟩ := ht { s with lastHumidity := some 0 }
    rw [h]
    exact ⟨_, rfl⟩
  obtain ⟨s1, h1⟩ := ht s
  obtain ⟨s2, h2⟩ := hh
  refine ⟨by simp only [Sensor.call, h1], ?_, by simp only [Sensor.call, h2],
    by simp only [Sensor.call, GetTemperature, h1], by simp only [Sensor.call, GetHumidity, h2],
    by simp only [Sensor.call, softReset, hs], ?_, ?_⟩
  · simp only [Sensor.call]
    unfold readTemperatureF readTemperatureRaw
    dsimp only
    have := hm 0x03#8 s.world
    generalize measure D dur 0x03#8 s.world = p at this
    obtain ⟨w', r⟩ := p
    dsimp only at this
    subst this
    rfl
  · simp only [Sensor.call]
    unfold setStatusRegister
    have := hs 0x06#8 true s.world
    generalize sendByteToSHT D dur 0x06#8 true s.world = p at this
    obtain ⟨w', ok⟩ := p
    dsimp only at this
    subst this
    rfl
  · unfold getStatusRegister
    exact hm _ _

/-- The sensor puts out the highest bit of its status; time does not change that. -/
theorem waitHigh_sending (dur : Nat → Nat → Nat) (b : Byte) (rest : List Byte) (st : Byte) (m : Nat)
    (out l : Bool) (n : Nat) : ∀ k, ∃ k', waitHigh (chip script check) dur (n + 1)
      ⟨⟨false, l, .sending (bitsOf b) rest, st, m⟩, out, false, false, k⟩ =
      (⟨⟨false, l, .sending (bitsOf b) rest, st, m⟩, out, false, false, k'⟩, b.getLsbD 7) := by
  have hr : ∀ k, readData (chip script check)
      ⟨⟨false, l, .sending (bitsOf b) rest, st, m⟩, out, false, false, k⟩ = b.getLsbD 7 := by
    intro k
    show (true && !(!b.getLsbD 7)) = _
    cases b.getLsbD 7 <;> rfl
  have hp : ∀ k, pass (chip script check) dur 4000
      ⟨⟨false, l, .sending (bitsOf b) rest, st, m⟩, out, false, false, k⟩ =
      ⟨⟨false, l, .sending (bitsOf b) rest, st, m⟩, out, false, false, k + 1⟩ := fun _ => rfl
  induction n with
  | zero =>
    intro k
    rw [waitHigh, hr, hp]
    cases h : b.getLsbD 7
    · exact ⟨k + 1, rfl⟩
    · exact ⟨k, rfl⟩
  | succ n ih =>
    intro k
    rw [waitHigh, hr, hp]
    cases h : b.getLsbD 7
    · obtain ⟨k', e⟩ := ih (k + 1)
      rw [h] at e
      exact ⟨k', by rw [if_neg Bool.false_ne_true]; exact e⟩
    · exact ⟨k, rfl⟩

theorem waitLow_sending (dur : Nat → Nat → Nat) (b : Byte) (rest : List Byte) (st : Byte) (m : Nat)
    (out l : Bool) (hb : b.getLsbD 7 = true) (n : Nat) : ∀ k, ∃ k',
      waitLow (chip script check) dur n
      ⟨⟨false, l, .sending (bitsOf b) rest, st, m⟩, out, false, false, k⟩ =
      (⟨⟨false, l, .sending (bitsOf b) rest, st, m⟩, out, false, false, k'⟩, false) := by
  have hr : ∀ k, readData (chip script check)
      ⟨⟨false, l, .sending (bitsOf b) rest, st, m⟩, out, false, false, k⟩ = true := by
    intro k
    show (true && !(!b.getLsbD 7)) = _
    rw [hb]
    rfl
  have hp : ∀ k, pass (chip script check) dur 20000
      ⟨⟨false, l, .sending (bitsOf b) rest, st, m⟩, out, false, false, k⟩ =
      ⟨⟨false, l, .sending (bitsOf b) rest, st, m⟩, out, false, false, k + 1⟩ := fun _ => rfl
  induction n with
  | zero => intro k; exact ⟨k, rfl⟩
  | succ n ih =>
    intro k
    rw [waitLow, hr, hp]
    obtain ⟨k', e⟩ := ih (k + 1)
    exact ⟨k', by rw [if_pos rfl]; exact e⟩

/-- **C99**, finding.  `getStatusRegister` fails whatever the status register is: the sensor puts
the status out at once, so that DATA either does not rise after the acknowledge, or does not fall
to announce a result. -/
theorem C99_status_unreadable (dur : Nat → Nat → Nat) (w : World Chip) (hw : Rest w) :
    (getStatusRegister (chip script check) dur w).2 = none := by
  rw [rest_form w hw]
  generalize w.dev.status = st
  generalize w.dev.count = m
  generalize w.waits = k
  generalize w.out = o
  have a : activateDataPin (chip script check) ⟨⟨false, true, .idle, st, m⟩, o, false, false, k⟩ =
      ⟨⟨false, true, .idle, st, m⟩, true, true, false, k⟩ := by cases o <;> rfl
  have c : clockCycle (chip script check) ⟨⟨false, true, .idle, st, m⟩, true, true, false, k⟩ =
      ⟨⟨false, true, .idle, st, m⟩, true, true, false, k⟩ := rfl
  have ten : ∀ l : List Nat, l.foldl (fun w _ => clockCycle (chip script check) w)
      ⟨⟨false, true, .idle, st, m⟩, true, true, false, k⟩ =
      ⟨⟨false, true, .idle, st, m⟩, true, true, false, k⟩ := by
    intro l
    induction l with
    | nil => rfl
    | cons x xs ih => rw [List.foldl_cons, c, ih]
  unfold getStatusRegister
  dsimp only
  rw [a, ten]
  obtain ⟨b, hb⟩ := send_command script check dur 0x07#8 rfl true true st m k
  have s1 : setClock (chip script check) false
      ⟨⟨true, false, .ack 0x07#8, st, m⟩, b, false, true, k⟩ =
      ⟨⟨false, true && !(!st.getLsbD 7), .sending (bitsOf st) [check [0x07#8, st]], st, m⟩, b, false,
        false, k⟩ := rfl
  unfold measure
  rw [hb, s1]
  obtain ⟨k1, e1⟩ := waitHigh_sending script check dur st [check [0x07#8, st]] st m b
    (true && !(!st.getLsbD 7)) 24 k
  rw [e1]
  dsimp only
  by_cases h : st.getLsbD 7 = true
  · rw [if_pos h]
    have s2 : releaseDataPin (chip script check)
        ⟨⟨false, true && !(!st.getLsbD 7), .sending (bitsOf st) [check [0x07#8, st]], st, m⟩, b, false,
          false, k1⟩ =
        ⟨⟨false, true && !(!st.getLsbD 7), .sending (bitsOf st) [check [0x07#8, st]], st, m⟩, b, false,
          false, k1⟩ := rfl
    obtain ⟨k2, e2⟩ := waitLow_sending script check dur st [check [0x07#8, st]] st m b
      (true && !(!st.getLsbD 7)) h (340 / 20 + 1) k1
    unfold waitForResultSHT
    rw [s2, e2]
    rfl
  · rw [if_neg h]

end

/-! ## The hypotheses are met -/

/-- A sensor that measures the temperature 20.00 and the raw humidity 1200 plus the number of the
measurement, in 300 ms, with 10 ms of DATA low after the command. -/
def demoScript (k : Nat) : Reading := ⟨5970, 1200 + k % 100, 300000, 10000⟩

example : Conforming demoScript := by
  intro k
  simp only [demoScript]
  omega

example : Delays (fun k d => if d = 4000 then 4000 + k % 1000 else d - k % 1000) := by
  intro k
  simp only [if_true, Nat.reduceEqDiff, if_false]
  omega

/-- Integer arithmetic in place of floats, to follow the numbers. -/
def wholeNumbers : Gas.Arith Int where
  ofInt n := n
  lit q := q.num / q.den
  neg a := -a
  add a b := a + b
  sub a b := a - b
  mul a b := a * b
  div a b := a / b
  sqrt a := a
  exp a := a
  lt a b := decide (a < b)
  le a b := decide (a ≤ b)
  eq a b := decide (a = b)
  toInt a := a

/-- A history on that sensor, read as raw values: the status register is the low byte written, and
four measurements were made. -/
example : ((Sensor.new (chip demoScript fun _ => 0#8) ⟨true, false, .idle, 0#8, 0⟩ false).calls
    (chip demoScript fun _ => 0#8) wholeNumbers (fun _ d => d)
    [.readTemperatureC, .setStatusRegister 0x1201#16, .readHumidity, .getTemperature]).1.view.status =
      0x01#8 ∧
    ((Sensor.new (chip demoScript fun _ => 0#8) ⟨true, false, .idle, 0#8, 0⟩ false).calls
    (chip demoScript fun _ => 0#8) wholeNumbers (fun _ d => d)
    [.readTemperatureC, .setStatusRegister 0x1201#16, .readHumidity, .getTemperature]).1.view.count =
      4 := by
  have h := (C99_history demoScript (fun _ => 0#8) wholeNumbers (fun _ d => d)
    (fun k => by dsimp only; omega)
    (by intro k; simp only [demoScript]; omega) ⟨true, false, .idle, 0#8, 0⟩ rfl false
    [.readTemperatureC, .setStatusRegister 0x1201#16, .readHumidity, .getTemperature]).1
  rw [h]
  exact ⟨rfl, rfl⟩

/-- A device without a sensor. -/
example : ∀ s, (⟨fun s _ _ => s, fun _ => false, fun s _ => s⟩ : Device Unit).pull s = false :=
  fun _ => rfl

/-- A sensor at rest whose status cannot be read. -/
example : Rest ⟨⟨false, true, .idle, 0x81#8, 3⟩, true, false, false, 7⟩ := ⟨rfl, rfl, rfl, rfl, rfl⟩

/-! ## The start of reading the status -/

/-- A device that notes what it sees: whether DATA is left free, and the level of SCK. -/
def recorder (pull : List (Bool × Bool) → Bool) : Device (List (Bool × Bool)) :=
  ⟨fun s f c => s ++ [(f, c)], pull, fun s _ => s⟩

section
variable (pull : List (Bool × Bool) → Bool) (dur : Nat → Nat → Nat)

theorem rec_settle (w : World (List (Bool × Bool))) : w.dev <+: (settle (recorder pull) w).dev :=
  List.prefix_append _ _

theorem rec_setData (v) (w : World (List (Bool × Bool))) :
    w.dev <+: (setData (recorder pull) v w).dev := List.prefix_append _ _

theorem rec_setClock (v) (w : World (List (Bool × Bool))) :
    w.dev <+: (setClock (recorder pull) v w).dev := List.prefix_append _ _

theorem rec_activate (w : World (List (Bool × Bool))) :
    w.dev <+: (activateDataPin (recorder pull) w).dev :=
  (rec_settle pull { w with dir := true }).trans (rec_setData pull _ _)

theorem rec_release (w : World (List (Bool × Bool))) :
    w.dev <+: (releaseDataPin (recorder pull) w).dev := List.prefix_append _ _

theorem rec_cycle (w : World (List (Bool × Bool))) :
    w.dev <+: (clockCycle (recorder pull) w).dev :=
  (rec_setClock pull _ _).trans (rec_setClock pull _ _)

theorem rec_start (w : World (List (Bool × Bool))) :
    w.dev <+: (sendTransmissionStart (recorder pull) w).dev :=
  (rec_setData pull _ _).trans <| (rec_setClock pull _ _).trans <| (rec_setData pull _ _).trans <|
    (rec_setClock pull _ _).trans <| (rec_setClock pull _ _).trans <| (rec_setData pull _ _).trans <|
    rec_setClock pull _ _

theorem rec_foldl {ι α : Type} (d : α → List (Bool × Bool)) (f : α → ι → α)
    (h : ∀ a i, d a <+: d (f a i)) : ∀ (l : List ι) (a : α), d a <+: d (l.foldl f a) := by
  intro l
  induction l with
  | nil => intro a; exact List.prefix_refl _
  | cons i l ih => intro a; exact (h a i).trans (ih _)

theorem rec_shiftOut (b) (w : World (List (Bool × Bool))) :
    w.dev <+: (shiftOut (recorder pull) b w).dev := by
  refine rec_foldl (fun w : World (List (Bool × Bool)) => w.dev) _ ?_ _ w
  intro w i
  refine rec_foldl (fun w : World (List (Bool × Bool)) => w.dev) _ ?_ _ w
  intro w e
  cases e
  · exact rec_setData pull _ _
  · exact rec_setClock pull _ _

theorem rec_shiftIn (w : World (List (Bool × Bool))) :
    w.dev <+: (shiftIn (recorder pull) w).1.dev := by
  refine rec_foldl (fun p : World (List (Bool × Bool)) × BitVec 32 => p.1.dev)
    (shiftInTurn (recorder pull)) ?_ (List.range 8) (w, 0#32)
  intro p i
  exact (rec_setClock pull _ _).trans (rec_setClock pull _ _)

theorem rec_waitHigh : ∀ n (w : World (List (Bool × Bool))),
    w.dev <+: (waitHigh (recorder pull) dur n w).1.dev := by
  intro n
  induction n with
  | zero => intro w; exact List.prefix_refl _
  | succ n ih =>
    intro w
    rw [waitHigh]
    split
    · exact List.prefix_refl _
    · exact ih (pass (recorder pull) dur 4000 w)

theorem rec_waitLow : ∀ n (w : World (List (Bool × Bool))),
    w.dev <+: (waitLow (recorder pull) dur n w).1.dev := by
  intro n
  induction n with
  | zero => intro w; exact List.prefix_refl _
  | succ n ih =>
    intro w
    rw [waitLow]
    split
    · exact ih (pass (recorder pull) dur 20000 w)
    · exact List.prefix_refl _

theorem rec_send (b c) (w : World (List (Bool × Bool))) :
    w.dev <+: (sendByteToSHT (recorder pull) dur b c w).1.dev := by
  have h0 : w.dev <+: (if c then sendTransmissionStart (recorder pull) (activateDataPin (recorder pull) w)
      else activateDataPin (recorder pull) w).dev := by
    split
    · exact (rec_activate pull _).trans (rec_start pull _)
    · exact rec_activate pull _
  unfold sendByteToSHT
  dsimp only
  generalize (if c then sendTransmissionStart (recorder pull) (activateDataPin (recorder pull) w)
      else activateDataPin (recorder pull) w) = a at h0 ⊢
  have h1 := h0.trans (rec_shiftOut pull b a)
  generalize shiftOut (recorder pull) b a = a1 at h1 ⊢
  have h2 := h1.trans (rec_release pull a1)
  generalize releaseDataPin (recorder pull) a1 = a2 at h2 ⊢
  have h3 := h2.trans (rec_setClock pull true a2)
  generalize setClock (recorder pull) true a2 = a3 at h3 ⊢
  split
  · exact h3
  · have h4 := h3.trans (rec_setClock pull false a3)
    generalize setClock (recorder pull) false a3 = a4 at h4 ⊢
    exact h4.trans (rec_waitHigh pull dur 25 a4)

theorem rec_getData (w : World (List (Bool × Bool))) :
    w.dev <+: (getData16SHT (recorder pull) w).1.dev :=
  (rec_release pull _).trans <| (rec_shiftIn pull _).trans <| (rec_activate pull _).trans <|
    (rec_setData pull _ _).trans <| (rec_cycle pull _).trans <| (rec_release pull _).trans <|
    rec_shiftIn pull _

theorem rec_measure (b) (w : World (List (Bool × Bool))) :
    w.dev <+: (measure (recorder pull) dur b w).1.dev := by
  have h1 := rec_send pull dur b true w
  unfold measure waitForResultSHT skipCrcSHT
  dsimp only
  generalize sendByteToSHT (recorder pull) dur b true w = r at h1 ⊢
  obtain ⟨a, ok⟩ := r
  dsimp only at h1 ⊢
  split
  · have h2 := h1.trans (rec_release pull a)
    generalize releaseDataPin (recorder pull) a = a2 at h2 ⊢
    have h3 := h2.trans (rec_waitLow pull dur (340 / 20 + 1) a2)
    generalize waitLow (recorder pull) dur (340 / 20 + 1) a2 = r3 at h3 ⊢
    obtain ⟨a3, ok3⟩ := r3
    dsimp only at h3 ⊢
    split
    · have h4 := h3.trans (rec_getData pull a3)
      generalize getData16SHT (recorder pull) a3 = r4 at h4 ⊢
      exact h4.trans ((rec_activate pull _).trans ((rec_cycle pull _).trans (rec_release pull _)))
    · exact h3
  · exact h1

/-- **C99 (connection reset).** Before the status register is read, the sensor gets ten clock
pulses while DATA is free; the data sheet asks for nine or more to reset the connection. -/
theorem C99_connection_reset (w : World (List (Bool × Bool))) (hclk : w.clk = false) :
    ∃ rest, (getStatusRegister (recorder pull) dur w).1.dev =
      w.dev ++ [(w.out, false), (true, false)] ++
        (List.replicate 10 [(true, true), (true, false)]).flatten ++ rest := by
  have h0 : ((List.range 10).foldl (fun w _ => clockCycle (recorder pull) w)
      (activateDataPin (recorder pull) w)).dev = w.dev ++ [(w.out, false), (true, false)] ++
        (List.replicate 10 [(true, true), (true, false)]).flatten := by
    obtain ⟨dev, out, dir, clk, k⟩ := w
    dsimp only at hclk
    subst hclk
    cases out <;>
      simp [List.range_succ, clockCycle, setClock, settle, activateDataPin, setData, recorder,
        World.free, List.replicate_succ]
  unfold getStatusRegister
  dsimp only
  generalize (List.range 10).foldl (fun w _ => clockCycle (recorder pull) w)
      (activateDataPin (recorder pull) w) = a at h0 ⊢
  obtain ⟨rest, h⟩ := rec_measure pull dur 0x07#8 a
  exact ⟨rest, by rw [← h, h0]⟩

/-- The driver's pins after the constructor meet the hypothesis. -/
example : (construct (recorder pull) [] true).clk = false := rfl

end

end Verif.Sht
