import Verif.I2c.Props70
import Verif.I2c.Sensors
import Verif.Crc.Props

/-!
# C71 — sensors on the I2C bus
-/

namespace Verif.I2c

open Verif

/-! ## Specification -/

/-- Reading `n` bytes from the slave `a` again and again until an attempt yields bytes, or until the time is after
`limit`: what is on the bus, and the bytes (`none`: the time is up). The time is read before each attempt; the first
reading is number `i`, `j` is the number of the next one afterwards. -/
inductive Polling (clk : Clk) (limit : Nat) (a : Byte) (n : Nat) : Nat → List BusEv → Option (List Byte) → Nat → Prop
  | timeout {i} : limit < clk i → Polling clk limit a n i [] none (i + 1)
  | answer {i ev o k rx} : clk i ≤ limit → Transaction a [] n ev o k rx → rx ≠ [] → Polling clk limit a n i ev (some rx) (i + 1)
  | again {i ev o k ev' p j} : clk i ≤ limit → Transaction a [] n ev o k [] → Polling clk limit a n (i + 1) ev' p j →
      Polling clk limit a n i (ev ++ ev') p j

/-- Every third byte is the CRC-8 (polynomial 0x31, start value `init`) of the two before it. -/
def WordsChecked (init : Byte) (b : List Byte) : Prop :=
  ∀ j, 3 * j + 2 < b.length → byteAt b (3 * j + 2) = Crc.Spec.crcL 0x31#8 init [byteAt b (3 * j), byteAt b (3 * j + 1)]

/-- Time passes with each reading, by at most `D`. -/
def Passes (clk : Clk) (D : Nat) : Prop := ∀ i, clk i < clk (i + 1) ∧ clk (i + 1) ≤ clk i + D

/-! ## Lemmas -/

theorem Returns.map {α β : Type} {f : Nat → Option α} {a : α} (h : Returns f a) (g : α → β) :
    Returns (fun m => (f m).map g) (g a) := by
  obtain ⟨n, h⟩ := h
  exact ⟨n, fun m hm => by show (f m).map g = _; rw [h m hm]; rfl⟩

theorem Returns.bind {α β : Type} {f : Nat → Option α} {a : α} {g : Nat → α → Option β} {b : β} (h : Returns f a)
    (h2 : Returns (fun m => g m a) b) : Returns (fun m => (f m).bind (g m)) b := by
  obtain ⟨n, h⟩ := h
  obtain ⟨n2, h2⟩ := h2
  exact ⟨max n n2, fun m hm => by
    show (f m).bind (g m) = _
    rw [h m (by omega)]
    exact h2 m (by omega)⟩

theorem Returns.pure {α : Type} (a : α) : Returns (fun _ => some a) a := ⟨0, fun _ _ => rfl⟩

theorem fromSlaves_append {E : Env} : ∀ (ev ev' t : List BusEv), FromSlaves E t ev → FromSlaves E (t ++ ev) ev' →
    FromSlaves E t (ev ++ ev') := by
  intro ev
  induction ev with
  | nil => intro ev' t _ h; simpa using h
  | cons e ev ih =>
    intro ev' t h h2
    exact ⟨h.1, ih _ _ h.2 (by simpa using h2)⟩

theorem millis_toNat {clk : Clk} {i : Nat} (h : clk i < 2 ^ 32) : (millis clk i).toNat = clk i := by
  rw [millis, BitVec.toNat_ofNat]
  exact Nat.mod_eq_of_lt h

theorem len8 {n k : Nat} (h : n < 256) (hk : k < 256) : BitVec.ofInt 8 (n : Int) = BitVec.ofNat 8 k ↔ n = k := by
  rw [BitVec.ofInt_natCast]
  constructor
  · intro q
    have := congrArg BitVec.toNat q
    simpa [Nat.mod_eq_of_lt h, Nat.mod_eq_of_lt hk] using this
  · rintro rfl; rfl

theorem wordOf_eq (a b : Byte) : wordOf a b = BitVec.ofNat 16 (256 * a.toNat + b.toNat) := by
  apply BitVec.eq_of_toNat_eq
  have ha := a.isLt
  have hb := b.isLt
  unfold wordOf
  rw [BitVec.toNat_or, BitVec.toNat_shiftLeft, BitVec.toNat_ofNat]
  simp only [BitVec.truncate_eq_setWidth, BitVec.toNat_setWidth]
  rw [Nat.mod_eq_of_lt (by omega : a.toNat < 2 ^ 16), Nat.mod_eq_of_lt (by omega : b.toNat < 2 ^ 16), Nat.shiftLeft_eq,
    Nat.mod_eq_of_lt (by omega), Nat.mod_eq_of_lt (by omega), Nat.mul_comm a.toNat,
    Nat.two_pow_add_eq_or_of_lt (i := 8) (by omega)]

theorem quiet_events {E : Env} (hE : Quiet E) {ev : List BusEv} : ∀ t, FromSlaves E t ev → BusEv.lost ∉ ev ∧ BusEv.error ∉ ev := by
  induction ev with
  | nil => intro t _; simp
  | cons e ev ih =>
    intro t h
    have := ih _ h.2
    have h1 := h.1
    cases e <;> simp [hE t] at h1 ⊢ <;> exact this

theorem long_eq (a b c d : Byte) : a.zeroExtend 32 <<< 24 ||| b.zeroExtend 32 <<< 16 ||| c.zeroExtend 32 <<< 8 ||| d.zeroExtend 32 =
    BitVec.ofNat 32 (2 ^ 24 * a.toNat + 2 ^ 16 * b.toNat + 256 * c.toNat + d.toNat) := by
  apply BitVec.eq_of_toNat_eq
  have ha := a.isLt
  have hb := b.isLt
  have hc := c.isLt
  have hd := d.isLt
  simp only [BitVec.toNat_or, BitVec.toNat_shiftLeft, BitVec.toNat_ofNat, BitVec.truncate_eq_setWidth, BitVec.toNat_setWidth,
    Nat.shiftLeft_eq]
  rw [Nat.mod_eq_of_lt (by omega : a.toNat < 2 ^ 32), Nat.mod_eq_of_lt (by omega : b.toNat < 2 ^ 32),
    Nat.mod_eq_of_lt (by omega : c.toNat < 2 ^ 32), Nat.mod_eq_of_lt (by omega : d.toNat < 2 ^ 32),
    Nat.mod_eq_of_lt (by omega : a.toNat * 2 ^ 24 < 2 ^ 32), Nat.mod_eq_of_lt (by omega : b.toNat * 2 ^ 16 < 2 ^ 32),
    Nat.mod_eq_of_lt (by omega : c.toNat * 2 ^ 8 < 2 ^ 32), Nat.mod_eq_of_lt (by omega)]
  rw [Nat.mul_comm a.toNat, ← Nat.two_pow_add_eq_or_of_lt (i := 24) (by omega),
    show 2 ^ 24 * a.toNat + b.toNat * 2 ^ 16 = 2 ^ 16 * (2 ^ 8 * a.toNat + b.toNat) from by omega,
    ← Nat.two_pow_add_eq_or_of_lt (i := 16) (by omega),
    show 2 ^ 16 * (2 ^ 8 * a.toNat + b.toNat) + c.toNat * 2 ^ 8 = 2 ^ 8 * (2 ^ 16 * a.toNat + 2 ^ 8 * b.toNat + c.toNat) from by omega,
    ← Nat.two_pow_add_eq_or_of_lt (i := 8) (by omega)]
  omega

/-! ## SHT4x -/

theorem sht4xLoop_spec (E : Env) (hE : SingleMaster E) (clk : Clk) (D limit : Nat) (hc : Passes clk D) (hl : limit + D < 2 ^ 32) :
    ∀ (d : Nat) (w : Wd), Idle w.h → clk w.n ≤ limit + D → limit + D - clk w.n ≤ d →
    ∃ K w' ev p, (∀ m, K ≤ m → ∀ k, d + 1 ≤ k → sht4xLoop E clk (BitVec.ofNat 32 limit) m k w =
        some (w', p.map fun rx => (BitVec.ofNat 8 rx.length, rx))) ∧
      Idle w'.h ∧ w'.h.trace = w.h.trace ++ ev ∧ FromSlaves E w.h.trace ev ∧ Polling clk limit 0x44#8 6 w.n ev p w'.n ∧
      (∀ rx, p = some rx → rx.length ≤ 6) := by
  intro d
  induction d with
  | zero =>
    intro w hi h1 h2
    refine ⟨0, ⟨w.h, w.n + 1⟩, [], none, fun m _ k hk => ?_, hi, by simp, trivial, ?_, fun rx h => by cases h⟩
    · obtain ⟨k, rfl⟩ : ∃ k', k = k' + 1 := ⟨k - 1, by omega⟩
      rw [sht4xLoop, if_pos]
      · rfl
      · have hD : 0 < D := by have := hc 0; omega
        rw [gt_iff_lt, BitVec.lt_def, millis_toNat (by omega), BitVec.toNat_ofNat]
        omega
    · exact .timeout (by have := hc 0; omega)
  | succ d ih =>
    intro w hi h1 h2
    by_cases ht : limit < clk w.n
    · refine ⟨0, ⟨w.h, w.n + 1⟩, [], none, fun m _ k hk => ?_, hi, by simp, trivial, .timeout ht, fun rx h => by cases h⟩
      obtain ⟨k, rfl⟩ : ∃ k', k = k' + 1 := ⟨k - 1, by omega⟩
      rw [sht4xLoop, if_pos]
      · rfl
      · rw [gt_iff_lt, BitVec.lt_def, millis_toNat (by omega), BitVec.toNat_ofNat]
        omega
    · have hnt : ¬ millis clk w.n > BitVec.ofNat 32 limit := by
        rw [gt_iff_lt, BitVec.lt_def, millis_toNat (by omega), BitVec.toNat_ofNat]
        omega
      obtain ⟨ev, o, k0, rx, r, ⟨n1, g1⟩, g2, g3, g4, g5, g6, g7, g8, g9, g10, g11⟩ := C70_read_partial E hE w.h hi 0x44#8 6 (by decide)
      by_cases hz : rx = []
      · have := hc w.n
        obtain ⟨K, w', ev', p, q1, q2, q3, q4, q5, q6⟩ := ih ⟨r.h, w.n + 1⟩ g5 (by show clk (w.n + 1) ≤ _; omega)
          (by show _ - clk (w.n + 1) ≤ d; omega)
        refine ⟨max K n1, w', ev ++ ev', p, fun m hm k hk => ?_, q2, ?_, fromSlaves_append _ _ _ g3 (g4 ▸ q4),
          .again (by omega) (hz ▸ g2) q5, q6⟩
        · obtain ⟨k, rfl⟩ : ∃ k', k = k' + 1 := ⟨k - 1, by omega⟩
          rw [sht4xLoop, if_neg hnt, g1 m (by omega)]
          dsimp only
          rw [if_pos (by rw [g7, hz]; decide)]
          exact q1 m (by omega) k (by omega)
        · rw [q3]
          show r.h.trace ++ ev' = _
          rw [g4, List.append_assoc]
      · refine ⟨n1, ⟨r.h, w.n + 1⟩, ev, some rx, fun m hm k hk => ?_, g5, g4, g3, .answer (by omega) g2 hz, ?_⟩
        · obtain ⟨k, rfl⟩ : ∃ k', k = k' + 1 := ⟨k - 1, by omega⟩
          rw [sht4xLoop, if_neg hnt, g1 m hm]
          dsimp only
          rw [if_neg, g7, BitVec.ofInt_natCast, g6]
          · rfl
          · rw [g7, show (0#8) = BitVec.ofNat 8 0 from rfl, len8 (by omega) (by decide)]
            intro q
            exact hz (List.length_eq_zero_iff.1 q)
        · rintro _ ⟨⟩; exact g8

theorem sht4xCheck_iff (rx : List Byte) (h : rx.length ≤ 6) :
    sht4xCheck (BitVec.ofNat 8 rx.length) rx = true ↔ rx.length = 6 ∧ WordsChecked 0xff#8 rx := by
  unfold sht4xCheck WordsChecked
  rw [Bool.and_eq_true, Bool.and_eq_true, decide_eq_true_iff, decide_eq_true_iff, decide_eq_true_iff]
  have h1 : BitVec.ofNat 8 rx.length = 6#8 ↔ rx.length = 6 := by
    have := len8 (n := rx.length) (k := 6) (by omega) (by decide)
    rwa [BitVec.ofInt_natCast] at this
  have hs := fun l => (Crc.C47_sensirion_crc8_standard l).2.1
  rw [h1, hs, hs]
  constructor
  · rintro ⟨⟨q1, q2⟩, q3⟩
    refine ⟨q1, fun j hj => ?_⟩
    have : j = 0 ∨ j = 1 := by omega
    rcases this with rfl | rfl
    · exact q2
    · exact q3
  · rintro ⟨q1, q2⟩
    exact ⟨⟨q1, q2 0 (by omega)⟩, q2 1 (by omega)⟩

open Classical in
/-- **C71 (part).** `SHT4xClass::readSensor` (the measurement and the serial number) on a bus with one master, with the
time of day not about to wrap: it returns, after sending the command once and, if the command got its address
acknowledged, reading until an attempt yields bytes or 300 ms have passed. It succeeds exactly if that attempt yielded
six bytes with both checksums right, and then delivers exactly these bytes. -/
theorem C71_sht4x_partial (E : Env) (hE : SingleMaster E) (clk : Clk) (D : Nat) (hc : Passes clk D) (w : Wd) (hi : Idle w.h)
    (hl : clk w.n + 300 + D < 2 ^ 32) (cmd : Byte) :
    ∃ r evc evp o k p, Returns (sht4xRead E clk w cmd) r ∧ Idle r.1.h ∧ r.1.h.trace = w.h.trace ++ evc ++ evp ∧
      FromSlaves E w.h.trace (evc ++ evp) ∧ Transaction 0x44#8 [cmd] 0 evc o k [] ∧
      (k = 0 → evp = [] ∧ r.2 = none) ∧
      (k = 1 → Polling clk (clk w.n + 300) 0x44#8 6 (w.n + 1) evp p r.1.n ∧
        r.2 = p.bind fun rx => if rx.length = 6 ∧ WordsChecked 0xff#8 rx then some rx else none) ∧
      k ≤ 1 := by
  obtain ⟨ev, o, k, r, ⟨n1, g1⟩, g2, g3, g4, g5, g6, g7, g8, g9⟩ := C70_send_partial E hE w.h hi 0x44#8 [cmd] (by simp)
  have hk : k ≤ 1 := (transaction_counts (Or.inl (by simp)) g2).1
  have hw : ∀ m, n1 ≤ m → sht4xWrite E w cmd m = some (⟨r.h, w.n⟩, decide (k = 1)) := by
    intro m hm
    unfold sht4xWrite
    rw [g1 m hm]
    show some ((⟨r.h, w.n⟩ : Wd), decide (r.ret = 1)) = _
    rw [g5]
    congr 2
    exact decide_eq_decide.2 (by omega)
  rcases (by omega : k = 0 ∨ k = 1) with h0 | h1
  · refine ⟨(⟨r.h, w.n⟩, none), ev, [], o, k, none, ⟨n1, fun m hm => ?_⟩, g6, by simp [g4], by simpa using g3, g2,
      fun _ => ⟨rfl, rfl⟩, fun h => by omega, hk⟩
    unfold sht4xRead
    rw [hw m hm, h0]
    rfl
  · have hcn := hc w.n
    obtain ⟨K, w', ev', p, q1, q2, q3, q4, q5, q6⟩ := sht4xLoop_spec E hE clk D (clk w.n + 300) hc (by omega)
      (clk w.n + 300 + D - clk (w.n + 1)) ⟨r.h, w.n + 1⟩ g6 (by show clk (w.n + 1) ≤ _; omega) (Nat.le_refl _)
    refine ⟨(w', p.bind fun rx => if rx.length = 6 ∧ WordsChecked 0xff#8 rx then some rx else none), ev, ev', o, k, p,
      ⟨max (max n1 K) (clk w.n + 300 + D - clk (w.n + 1) + 1), fun m hm => ?_⟩, q2, by rw [q3]; show r.h.trace ++ _ = _; rw [g4],
      fromSlaves_append _ _ _ g3 (g4 ▸ q4), g2, fun h => by omega, fun _ => ⟨q5, rfl⟩, hk⟩
    unfold sht4xRead
    rw [hw m (by omega), h1]
    show (sht4xLoop E clk (millis clk w.n + 300#32) m m ⟨r.h, w.n + 1⟩).map _ = _
    have ht : millis clk w.n + 300#32 = BitVec.ofNat 32 (clk w.n + 300) := by
      rw [millis, show (300#32) = BitVec.ofNat 32 300 from rfl, ← BitVec.ofNat_add]
    rw [ht, q1 m (by omega) m (by omega)]
    cases p with
    | none => rfl
    | some rx =>
      show some (w', if sht4xCheck (BitVec.ofNat 8 rx.length) rx = true then some rx else none) = _
      have hq := sht4xCheck_iff rx (q6 rx rfl)
      by_cases hx : rx.length = 6 ∧ WordsChecked 0xff#8 rx
      · rw [if_pos (hq.2 hx)]
        show _ = some (w', if _ then _ else _)
        rw [if_pos hx]
      · rw [if_neg (fun q => hx (hq.1 q))]
        show _ = some (w', if _ then _ else _)
        rw [if_neg hx]

/-- **C71 (part).** A successful measurement is the two words, the high byte first; the serial number likewise. -/
theorem C71_sht4x_values (E : Env) (clk : Clk) (w w' : Wd) (b : List Byte) :
    (Returns (sht4xRead E clk w 0xfd#8) (w', some b) → Returns (sht4xMeasure E clk w)
      (w', some (BitVec.ofNat 16 (256 * (byteAt b 0).toNat + (byteAt b 1).toNat),
        BitVec.ofNat 16 (256 * (byteAt b 3).toNat + (byteAt b 4).toNat)))) ∧
    (Returns (sht4xRead E clk w 0xfd#8) (w', none) → Returns (sht4xMeasure E clk w) (w', none)) ∧
    (Returns (sht4xRead E clk w 0x89#8) (w', some b) → Returns (sht4xSerial E clk w)
      (w', BitVec.ofNat 32 (2 ^ 24 * (byteAt b 0).toNat + 2 ^ 16 * (byteAt b 1).toNat + 256 * (byteAt b 3).toNat + (byteAt b 4).toNat))) ∧
    (Returns (sht4xRead E clk w 0x89#8) (w', none) → Returns (sht4xSerial E clk w) (w', 0#32)) := by
  refine ⟨fun h => ?_, fun h => ?_, fun h => ?_, fun h => ?_⟩
  · have := h.map fun (w, b) => (w, b.map fun b => (wordOf (byteAt b 0) (byteAt b 1), wordOf (byteAt b 3) (byteAt b 4)))
    rw [← wordOf_eq, ← wordOf_eq]
    exact this
  · exact h.map _
  · have := h.map fun
      | (w, none) => (w, 0#32)
      | (w, some b) => (w, (byteAt b 0).zeroExtend 32 <<< 24 ||| (byteAt b 1).zeroExtend 32 <<< 16 |||
          (byteAt b 3).zeroExtend 32 <<< 8 ||| (byteAt b 4).zeroExtend 32)
    rw [← long_eq]
    exact this
  · exact h.map _

/-- **C71 (violated part).** The time limit is compared without regard to the wrap of `millis()`: in the last 300 ms
before it the call gives up before the first attempt to read. -/
theorem C71_sht4x_wrap (E : Env) (hE : SingleMaster E) (clk : Clk) (w : Wd) (hi : Idle w.h) (cmd : Byte)
    (h1 : clk w.n < 2 ^ 32) (h2 : 2 ^ 32 ≤ clk w.n + 300) (h3 : clk w.n ≤ clk (w.n + 1)) (h4 : clk (w.n + 1) < 2 ^ 32) :
    ∃ r ev o k, Returns (sht4xRead E clk w cmd) r ∧ r.2 = none ∧ r.1.h.trace = w.h.trace ++ ev ∧
      Transaction 0x44#8 [cmd] 0 ev o k [] := by
  obtain ⟨ev, o, k, r, ⟨n1, g1⟩, g2, g3, g4, g5, g6, g7, g8, g9⟩ := C70_send_partial E hE w.h hi 0x44#8 [cmd] (by simp)
  have hw : ∀ m, n1 ≤ m → sht4xWrite E w cmd m = some (⟨r.h, w.n⟩, decide (r.ret = 1)) := by
    intro m hm
    unfold sht4xWrite
    rw [g1 m hm]
    rfl
  by_cases hr : r.ret = 1
  · refine ⟨(⟨r.h, w.n + 1 + 1⟩, none), ev, o, k, ⟨n1 + 1, fun m hm => ?_⟩, rfl, g4, g2⟩
    unfold sht4xRead
    rw [hw m (by omega), decide_eq_true hr]
    obtain ⟨m, rfl⟩ : ∃ m', m = m' + 1 := ⟨m - 1, by omega⟩
    dsimp only
    rw [sht4xLoop, if_pos]
    · rfl
    · rw [gt_iff_lt, BitVec.lt_def, millis_toNat h4, BitVec.toNat_add, millis_toNat h1, show (300#32).toNat = 300 from rfl]
      have : (clk w.n + 300) % 2 ^ 32 = clk w.n + 300 - 2 ^ 32 := by
        rw [Nat.mod_eq_sub_mod h2, Nat.mod_eq_of_lt (by omega)]
      rw [this]
      omega
  · refine ⟨(⟨r.h, w.n⟩, none), ev, o, k, ⟨n1, fun m hm => ?_⟩, rfl, g4, g2⟩
    unfold sht4xRead
    rw [hw m hm, decide_eq_false hr]

/-- **C71 (violated part).** `SHT4xClass::init` reports success exactly if the sensor acknowledged its address, whether it
accepted the command or refused it. -/
theorem C71_sht4x_init (E : Env) (hE : Quiet E) (w : Wd) (hi : Idle w.h) :
    ∃ r, Returns (sht4xInit E w) r ∧ (r.2 = true ↔ E.ack (w.h.trace ++ [.start]) = true) := by
  obtain ⟨ev, o, k, r, g1, g2, g3, g4, g5, g6, g7, g8, g9⟩ :=
    C70_send_partial E (fun t => by rw [hE t]; simp) w.h hi 0x44#8 [0x94#8] (by simp)
  refine ⟨_, g1.map _, ?_⟩
  show decide (r.ret = 1) = true ↔ _
  rw [decide_eq_true_iff, g5]
  have hf : ∀ {t ev'}, FromSlaves E t ev' → BusEv.lost ∉ ev' ∧ BusEv.error ∉ ev' := fun h => quiet_events hE _ h
  cases g2 with
  | write _ h =>
    have ha : E.ack (w.h.trace ++ [.start]) = true := (g3.2.1.2).symm
    have hk : k = 1 := by
      cases h with
      | ack b h => cases h with
        | stop => rfl
        | read h => exact absurd rfl h
      | nak => rfl
      | lost => rfl
      | error => rfl
    simp [ha, hk]
  | nak =>
    have ha : E.ack (w.h.trace ++ [.start]) = false := (g3.2.1.2).symm
    simp [ha]
  | lost => exact absurd (by simp) (hf g3).1
  | error => exact absurd (by simp) (hf g3).2
  | read h => cases h

/-! ## SHT2x -/

open Classical in
/-- **C71 (part, and violated part).** `SHT2xClass::readSensor` of an initialised sensor: one transaction, the command and
three bytes read; the value is the word read if all three bytes came and the checksum is right, else 0. The reading is
not repeated for 300 ms, as the loop intends: a failed first attempt is the last one (unless the clock stands exactly
300 ms after the start of the call). -/
theorem C71_sht2x_single_attempt (E : Env) (hE : SingleMaster E) (clk : Clk) (w : Wd) (hi : Idle w.h) (cmd : Byte)
    (hc : millis clk (w.n + 1) ≠ millis clk w.n + 300#32) :
    ∃ r ev o k rx, Returns (sht2xRead E clk w true cmd) r ∧ Idle r.1.h ∧ r.1.h.trace = w.h.trace ++ ev ∧
      FromSlaves E w.h.trace ev ∧ Transaction 0x40#8 [cmd] 3 ev o k rx ∧ r.2.1 = true ∧
      r.2.2 = if rx.length = 3 ∧ WordsChecked 0#8 rx then BitVec.ofNat 16 (256 * (byteAt rx 0).toNat + (byteAt rx 1).toNat) else 0#16 := by
  obtain ⟨ev, o, k, rx, r, ⟨n1, g1⟩, g2, g3, g4, g5, g6, g7, g8, g9, g10, g11⟩ :=
    C70_cmdRead_partial E hE w.h hi 0x40#8 cmd 3 (by decide)
  have key : ∀ m, n1 + 1 ≤ m → ∃ n, sht2xRead E clk w true cmd m = some (⟨r.h, n⟩, true,
      if rx.length = 3 ∧ WordsChecked 0#8 rx then BitVec.ofNat 16 (256 * (byteAt rx 0).toNat + (byteAt rx 1).toNat) else 0#16) ∧
      n = w.n + 1 + (if rx.length = 3 then 0 else 1) := by
    intro m hm
    obtain ⟨m, rfl⟩ : ∃ m', m = m' + 1 := ⟨m - 1, by omega⟩
    unfold sht2xRead
    simp only [if_pos, Option.bind_some]
    rw [sht2xLoop, g1 (m + 1) (by omega)]
    dsimp only
    rw [g7, g6]
    by_cases h3 : rx.length = 3
    · rw [if_neg (by rw [h3]; decide)]
      have hcrc : Crc.sht2xCrc8 [byteAt rx 0, byteAt rx 1] = byteAt rx 2 ↔ WordsChecked 0#8 rx := by
        rw [(Crc.C47_sensirion_crc8_standard _).1]
        constructor
        · intro q j hj
          have : j = 0 := by omega
          subst this
          exact q.symm
        · intro q
          exact (q 0 (by omega)).symm
      by_cases hw : WordsChecked 0#8 rx
      · rw [if_neg (by simpa using hcrc.2 hw), if_pos ⟨h3, hw⟩, if_pos h3, wordOf_eq]
        exact ⟨_, rfl, rfl⟩
      · rw [if_pos (fun q => hw (hcrc.1 q)), if_neg (fun q => hw q.2), if_pos h3]
        exact ⟨_, rfl, rfl⟩
    · have hgt : millis clk (w.n + 1) - (millis clk w.n + 300#32) > 0#32 := by
        rw [gt_iff_lt, BitVec.lt_def]
        rcases Nat.eq_zero_or_pos (millis clk (w.n + 1) - (millis clk w.n + 300#32)).toNat with q | q
        · have h0 : millis clk (w.n + 1) - (millis clk w.n + 300#32) = 0#32 := BitVec.eq_of_toNat_eq q
          have h1 := BitVec.sub_add_cancel (millis clk (w.n + 1)) (millis clk w.n + 300#32)
          rw [h0, BitVec.zero_add] at h1
          exact absurd h1.symm hc
        · exact q
      rw [if_pos (by omega), if_pos hgt, if_neg (fun q => h3 q.1), if_neg h3]
      exact ⟨_, rfl, rfl⟩
  refine ⟨(⟨r.h, w.n + 1 + (if rx.length = 3 then 0 else 1)⟩, true,
    if rx.length = 3 ∧ WordsChecked 0#8 rx then BitVec.ofNat 16 (256 * (byteAt rx 0).toNat + (byteAt rx 1).toNat) else 0#16), ev, o, k, rx, ⟨n1 + 1, fun m hm => ?_⟩, g5, g4, g3, g2, rfl, rfl⟩
  obtain ⟨n, q1, q2⟩ := key m hm
  rw [q1, q2]

/-- **C71 (part).** `SHT2xClass::Init`: the object counts as initialised only if the user register was read; then the
register is written back with the bits 0 and 7 cleared (the highest resolution) and the others unchanged. -/
theorem C71_sht2x_init_partial (E : Env) (hE : SingleMaster E) (w : Wd) (hi : Idle w.h) :
    ∃ r ev o k rx, Returns (sht2xInit E w false) r ∧ Idle r.1.h ∧ Transaction 0x40#8 [0xe7#8] 1 ev o k rx ∧ FromSlaves E w.h.trace ev ∧
      (rx = [] → r.2 = false ∧ r.1.h.trace = w.h.trace ++ ev) ∧
      (∀ v, rx = [v] → r.2 = true ∧ ∃ ev2 o2 k2, Transaction 0x40#8 [0xe6#8, v &&& 0x7e#8] 0 ev2 o2 k2 [] ∧
        r.1.h.trace = w.h.trace ++ ev ++ ev2) ∧ rx.length ≤ 1 := by
  obtain ⟨ev, o, k, rx, r, ⟨n1, g1⟩, g2, g3, g4, g5, g6, g7, g8, g9, g10, g11⟩ :=
    C70_cmdRead_partial E hE w.h hi 0x40#8 0xe7#8 1 (by decide)
  by_cases h1 : rx.length = 1
  · obtain ⟨ev2, o2, k2, r2, ⟨n2, f1⟩, f2, f3, f4, f5, f6, f7, f8, f9⟩ :=
      C70_send_partial E hE r.h g5 0x40#8 [0xe6#8, byteAt rx 0 &&& 0x7e#8] (by simp)
    refine ⟨(⟨r2.h, w.n⟩, true), ev, o, k, rx, ⟨max n1 n2, fun m hm => ?_⟩, f6, g2, g3, fun q => ?_, fun v hv => ⟨rfl, ev2, o2, k2, ?_, ?_⟩, g8⟩
    · unfold sht2xInit
      rw [g1 m (by omega)]
      dsimp only
      rw [if_pos (by rw [g7, h1]; rfl), g6, f1 m (by omega)]
      rfl
    · rw [q] at h1; cases h1
    · rw [hv] at f2; exact f2
    · rw [show ((⟨r2.h, w.n⟩ : Wd), true).1.h = r2.h from rfl, f4, g4]
  · refine ⟨(⟨r.h, w.n⟩, false), ev, o, k, rx, ⟨n1, fun m hm => ?_⟩, g5, g2, g3, fun _ => ⟨rfl, g4⟩, fun v hv => ?_, g8⟩
    · unfold sht2xInit
      rw [g1 m hm]
      dsimp only
      rw [if_neg (by rw [g7]; omega)]
    · rw [hv] at h1; exact absurd rfl h1

theorem and_fffc (x : Nat) (h : x < 2 ^ 16) : x &&& 0xfffc = x / 4 * 4 := by
  have e : x / 4 * 4 = (x >>> 2) <<< 2 := by rw [Nat.shiftRight_eq_div_pow, Nat.shiftLeft_eq]
  rw [e]
  apply Nat.eq_of_testBit_eq
  intro i
  rw [Nat.testBit_and, Nat.testBit_shiftLeft, Nat.testBit_shiftRight]
  by_cases hi : i < 16
  · have : Nat.testBit 0xfffc i = decide (i ≥ 2) := by
      have : ∀ i, i < 16 → Nat.testBit 0xfffc i = decide (i ≥ 2) := by decide
      exact this i hi
    rw [this, Bool.and_comm]
    by_cases h2 : i ≥ 2
    · rw [show 2 + (i - 2) = i from by omega]
    · simp [h2]
  · rw [Nat.testBit_lt_two_pow (show x < 2 ^ i from Nat.lt_of_lt_of_le h (Nat.pow_le_pow_right (by decide) (by omega))),
      show 2 + (i - 2) = i from by omega,
      Nat.testBit_lt_two_pow (show x < 2 ^ i from Nat.lt_of_lt_of_le h (Nat.pow_le_pow_right (by decide) (by omega)))]
    simp

theorem and_two (x : Nat) : x &&& 2 = 0 ↔ x.testBit 1 = false := by
  constructor
  · intro h
    have := congrArg (fun y => Nat.testBit y 1) h
    simpa [Nat.testBit_and, show Nat.testBit 2 1 = true from rfl] using this
  · intro h
    apply Nat.eq_of_testBit_eq
    intro i
    rw [Nat.testBit_and, Nat.zero_testBit]
    by_cases hi : i = 1
    · rw [hi, h]; rfl
    · rw [show (2 : Nat) = 2 ^ 1 from rfl, Nat.testBit_two_pow]
      simp [Ne.symm hi]

/-- **C71 (part).** The values in hundredths: for a raw value `v` (not 0) with the status bit of a temperature the result of
`GetTemperature` is −46.85 + 175.72 · S / 65536 degrees rounded down to a hundredth (S: `v` without the two status bits),
else −273.00, which no measurement gives; `GetHumidity` is −6 + 125 · S / 65536 percent likewise, else 0. -/
theorem C71_sht2x_values (v : Word) :
    let S : Int := (v.toNat / 4 * 4 : Nat)
    (v ≠ 0#16 ∧ v.getLsbD 1 = false →
      65536 * (sht2xTemperature v + 4685) ≤ 17572 * S ∧ 17572 * S < 65536 * (sht2xTemperature v + 4686) ∧
      -4685 ≤ sht2xTemperature v) ∧
    (¬ (v ≠ 0#16 ∧ v.getLsbD 1 = false) → sht2xTemperature v = -27300) ∧
    (v.getLsbD 1 = true →
      65536 * (sht2xHumidity v + 600) ≤ 12500 * S ∧ 12500 * S < 65536 * (sht2xHumidity v + 601) ∧
      -600 ≤ sht2xHumidity v) ∧
    (v.getLsbD 1 = false → sht2xHumidity v = 0) := by
  have hv := v.isLt
  have hz : v = 0#16 ↔ v.toNat = 0 := by
    constructor
    · rintro rfl; rfl
    · intro h; exact BitVec.eq_of_toNat_eq h
  have hb : v &&& 0x2#16 ≠ 0#16 ↔ v.getLsbD 1 = true := by
    have : v &&& 0x2#16 = 0#16 ↔ v.toNat &&& 2 = 0 := by
      constructor
      · intro h; exact congrArg BitVec.toNat h
      · intro h; exact BitVec.eq_of_toNat_eq (by simpa [BitVec.toNat_and] using h)
    rw [Ne, this, and_two]
    show ¬ v.getLsbD 1 = false ↔ _
    simp
  have hb2 : v.zeroExtend 32 &&& 0x2#32 = 0#32 ↔ v.getLsbD 1 = false := by
    have : v.zeroExtend 32 &&& 0x2#32 = 0#32 ↔ v.toNat &&& 2 = 0 := by
      have hm : v.toNat % 2 ^ 32 = v.toNat := Nat.mod_eq_of_lt (by omega)
      constructor
      · intro h
        have := congrArg BitVec.toNat h
        simpa [BitVec.toNat_and, hm] using this
      · intro h
        apply BitVec.eq_of_toNat_eq
        simp [BitVec.toNat_and, hm, h]
    rw [this, and_two]
    rfl
  have hm : (v &&& 0xfffc#16).toNat = v.toNat / 4 * 4 := by
    rw [BitVec.toNat_and]; exact and_fffc _ hv
  have hT : v ≠ 0#16 ∧ v.getLsbD 1 = false → sht2xTemperature v = (17572 * ((v.toNat / 4 * 4 : Nat) : Int)) / 65536 - 4685 := by
    rintro ⟨h1, h2⟩
    unfold sht2xTemperature
    rw [if_neg, hm, Int.tdiv_eq_ediv_of_nonneg (by omega)]
    rintro (h | h)
    · exact h1 (hz.2 (by exact_mod_cast h))
    · rw [hb, h2] at h; cases h
  have hH : v.getLsbD 1 = true → sht2xHumidity v = (12500 * ((v.toNat / 4 * 4 : Nat) : Int)) / 65536 - 600 := by
    intro h1
    unfold sht2xHumidity
    have hne : v ≠ 0#16 := by rintro rfl; revert h1; decide
    rw [if_neg]
    · have e : (v.zeroExtend 32 &&& 0xfffc#32).toNat = v.toNat / 4 * 4 := by
        rw [BitVec.toNat_and]
        simp only [BitVec.truncate_eq_setWidth, BitVec.toNat_setWidth]
        rw [Nat.mod_eq_of_lt (by omega)]
        exact and_fffc _ hv
      generalize hS : v.toNat / 4 * 4 = S at e
      have hS2 : S < 65536 := by omega
      have e2 : (12500#32 * (v.zeroExtend 32 &&& 0xfffc#32) / 65536#32).toNat = 12500 * S / 65536 := by
        rw [BitVec.toNat_udiv, BitVec.toNat_mul, e, show (12500#32).toNat = 12500 from rfl, show (65536#32).toNat = 65536 from rfl,
          Nat.mod_eq_of_lt (by omega)]
      generalize 12500#32 * (v.zeroExtend 32 &&& 0xfffc#32) / 65536#32 = q at e2
      show (q - 600#32).toInt = _
      rw [BitVec.toInt_eq_toNat_bmod, BitVec.toNat_sub, e2, show (600#32).toNat = 600 from rfl]
      have hq : 12500 * S / 65536 < 12500 := by omega
      have hc : (12500 * (S : Int)) / 65536 = ((12500 * S / 65536 : Nat) : Int) := by omega
      rw [hc]
      generalize 12500 * S / 65536 = q' at hq
      rw [Int.bmod_def]
      omega
    · rintro (h | h)
      · have := congrArg BitVec.toNat h
        simp only [BitVec.truncate_eq_setWidth, BitVec.toNat_setWidth] at this
        rw [Nat.mod_eq_of_lt (by omega)] at this
        exact hne (hz.2 this)
      · rw [hb2, h1] at h; cases h
  refine ⟨fun h => ?_, fun h => ?_, fun h => ?_, fun h => ?_⟩
  · rw [hT h]; omega
  · unfold sht2xTemperature
    rw [if_pos]
    by_cases h0 : v = 0#16
    · left; exact_mod_cast hz.1 h0
    · right
      rw [hb]
      cases hg : v.getLsbD 1
      · exact absurd ⟨h0, hg⟩ h
      · rfl
  · rw [hH h]; omega
  · unfold sht2xHumidity
    rw [if_pos (Or.inr (hb2.2 h))]

/-- **C71 (violated part).** `GetHumidity` returns 0 for a failed measurement ("some unrealistic value"), and also for
measurements: 0x0c4e is a valid raw value. -/
theorem C71_sht2x_humidity_zero : sht2xHumidity 0x0c4e#16 = 0 ∧ (0x0c4e#16 : Word).getLsbD 1 = true := by decide +kernel

/-! ## SGP4x -/

theorem sgpCheck_spec (b : List Byte) (n : Nat) (hn : n = b.length) (h3 : n % 3 = 0) (h255 : n ≤ 255) :
    ∀ (d j : Nat), 3 * (j + d) = n → ∀ k, d + 1 ≤ k → ∃ ok, sgpCheck b (n : Int) k (BitVec.ofNat 8 (3 * j)) = some ok ∧
      (ok = true ↔ ∀ i, j ≤ i → 3 * i + 2 < b.length →
        byteAt b (3 * i + 2) = Crc.Spec.crcL 0x31#8 0xff#8 [byteAt b (3 * i), byteAt b (3 * i + 1)]) := by
  intro d
  induction d with
  | zero =>
    intro j hj k hk
    obtain ⟨k, rfl⟩ : ∃ k', k = k' + 1 := ⟨k - 1, by omega⟩
    refine ⟨true, ?_, ?_⟩
    · rw [sgpCheck, if_neg]
      rw [BitVec.toNat_ofNat, Nat.mod_eq_of_lt (by omega)]
      omega
    · simp only [true_iff]
      intro i hi hl
      omega
  | succ d ih =>
    intro j hj k hk
    obtain ⟨k, rfl⟩ : ∃ k', k = k' + 1 := ⟨k - 1, by omega⟩
    have ht : (BitVec.ofNat 8 (3 * j)).toNat = 3 * j := by
      rw [BitVec.toNat_ofNat, Nat.mod_eq_of_lt (by omega)]
    have hcrc := (Crc.C47_sensirion_crc8_standard [byteAt b (3 * j), byteAt b (3 * j + 1)]).2.2
    by_cases hc : Crc.sgp4xCrc8 [byteAt b (3 * j), byteAt b (3 * j + 1)] = byteAt b (3 * j + 2)
    · obtain ⟨ok, q1, q2⟩ := ih (j + 1) (by omega) k (by omega)
      refine ⟨ok, ?_, ?_⟩
      · rw [sgpCheck, ht, if_pos (by omega), if_neg (fun q => q hc), ← q1, Nat.mul_add]
        congr 1
        rw [show (3#8) = BitVec.ofNat 8 3 from rfl, ← BitVec.ofNat_add]
      · rw [q2]
        constructor
        · intro q i hi hl
          by_cases hij : i = j
          · subst hij
            rw [← hc, hcrc]
          · exact q i (by omega) hl
        · intro q i hi hl
          exact q i (by omega) hl
    · refine ⟨false, ?_, ?_⟩
      · rw [sgpCheck, ht, if_pos (by omega), if_pos hc]
      · constructor
        · intro h; cases h
        · intro q
          have := q j (Nat.le_refl _) (by omega)
          rw [← hcrc] at this
          exact absurd this.symm hc

/-- **C71 (part).** `SGP4xClass::readSensor`, every command: returns; the command with its parameters is sent once; if all its
bytes were put on the bus and an answer is expected, the answer is read once. Success with an answer means exactly: all
bytes came, they are whole words with checksums, and every checksum is right. The other results tell which of these
failed. -/
theorem C71_sgp_read_partial (E : Env) (hE : SingleMaster E) (h : Hw) (hi : Idle h) (cmd : Word) (par : List Byte) (size : Byte) :
    let c := [BitVec.ofNat 8 (cmd.toNat / 256), BitVec.ofNat 8 cmd.toNat] ++ par
    ∃ r ev o k ev2, Returns (sgpRead E h cmd par size) r ∧ Idle r.1 ∧ r.1.trace = h.trace ++ ev ++ ev2 ∧
      FromSlaves E h.trace (ev ++ ev2) ∧ Transaction 0x59#8 c 0 ev o k [] ∧
      (k ≠ c.length → ev2 = [] ∧ r.2.1 = .sendError) ∧
      (k = c.length → size = 0#8 → ev2 = [] ∧ r.2.1 = .success) ∧
      (k = c.length → size ≠ 0#8 → ∃ o2 k2, Transaction 0x59#8 [] size.toNat ev2 o2 k2 r.2.2 ∧
        (r.2.1 = .success ↔ r.2.2.length = size.toNat ∧ size.toNat % 3 = 0 ∧ WordsChecked 0xff#8 r.2.2) ∧
        (r.2.1 = .readError ↔ r.2.2.length ≠ size.toNat) ∧
        (r.2.1 = .crc8Mismatch ↔ r.2.2.length = size.toNat ∧ size.toNat % 3 = 0 ∧ ¬ WordsChecked 0xff#8 r.2.2)) := by
  intro c
  have hc : [(cmd >>> 8).truncate 8, cmd.truncate 8] ++ par = c := by
    show _ = [_, _] ++ par
    congr 1
    have hb := cmd.isLt
    congr 1
    · apply BitVec.eq_of_toNat_eq
      simp [BitVec.toNat_ushiftRight, Nat.shiftRight_eq_div_pow]
  generalize c = c at hc
  obtain ⟨ev, o, k, r, g1, g2, g3, g4, g5, g6, g7, g8, g9⟩ := C70_send_partial E hE h hi 0x59#8 c (by rw [← hc]; simp)
  have hsz : size = 0#8 ↔ size.toNat = 0 := by
    constructor
    · rintro rfl; rfl
    · intro q; exact BitVec.eq_of_toNat_eq q
  by_cases hk : k = c.length
  · by_cases hs : size = 0#8
    · refine ⟨(r.h, .success, []), ev, o, k, [], ?_, g6, by simp [g4], by simpa using g3, g2, fun q => absurd hk q, fun _ _ => ⟨rfl, rfl⟩,
        fun _ q => absurd hs q⟩
      unfold sgpRead
      rw [hc]
      refine g1.bind ?_
      simp only [g5, hk, hs]
      simp only [ne_eq, not_true_eq_false, if_false, if_true]
      exact Returns.pure _
    · obtain ⟨ev2, o2, k2, rx, r2, f1, f2, f3, f4, f5, f6, f7, f8, f9, f10, f11⟩ :=
        C70_read_partial E hE r.h g6 0x59#8 size.toNat (fun q => hs (hsz.2 q))
      have start : ∀ {x}, Returns (fun m => (if r2.ret ≠ size.toNat then some (r2.h, .readError, r2.rx)
          else if r2.ret = 0 ∨ Int.tmod r2.ret 3 ≠ 0 then some (r2.h, .invalidByteCount, r2.rx)
          else (sgpCheck r2.rx r2.ret m 0#8).map fun ok => (r2.h, if ok then .success else .crc8Mismatch, r2.rx))) x →
          Returns (sgpRead E h cmd par size) x := by
        intro x hx
        unfold sgpRead
        rw [hc]
        refine g1.bind ?_
        simp only [g5, hk]
        simp only [ne_eq, not_true_eq_false, if_false, if_neg hs]
        exact f1.bind hx
      have hlt := size.isLt
      have fin : ∀ res, Returns (sgpRead E h cmd par size) (r2.h, res, rx) →
          (res = .success ↔ rx.length = size.toNat ∧ size.toNat % 3 = 0 ∧ WordsChecked 0xff#8 rx) →
          (res = .readError ↔ rx.length ≠ size.toNat) →
          (res = .crc8Mismatch ↔ rx.length = size.toNat ∧ size.toNat % 3 = 0 ∧ ¬ WordsChecked 0xff#8 rx) →
          ∃ r ev o k ev2, Returns (sgpRead E h cmd par size) r ∧ Idle r.1 ∧ r.1.trace = h.trace ++ ev ++ ev2 ∧
            FromSlaves E h.trace (ev ++ ev2) ∧ Transaction 0x59#8 c 0 ev o k [] ∧
            (k ≠ c.length → ev2 = [] ∧ r.2.1 = .sendError) ∧
            (k = c.length → size = 0#8 → ev2 = [] ∧ r.2.1 = .success) ∧
            (k = c.length → size ≠ 0#8 → ∃ o2 k2, Transaction 0x59#8 [] size.toNat ev2 o2 k2 r.2.2 ∧
              (r.2.1 = .success ↔ r.2.2.length = size.toNat ∧ size.toNat % 3 = 0 ∧ WordsChecked 0xff#8 r.2.2) ∧
              (r.2.1 = .readError ↔ r.2.2.length ≠ size.toNat) ∧
              (r.2.1 = .crc8Mismatch ↔ r.2.2.length = size.toNat ∧ size.toNat % 3 = 0 ∧ ¬ WordsChecked 0xff#8 r.2.2)) := by
        intro res q1 q2 q3 q4
        exact ⟨(r2.h, res, rx), ev, o, k, ev2, q1, f5, by rw [f4, g4], fromSlaves_append _ _ _ g3 (g4 ▸ f3), g2, fun q => absurd hk q,
          fun _ q => absurd q hs, fun _ _ => ⟨o2, k2, f2, q2, q3, q4⟩⟩
      by_cases hl : rx.length = size.toNat
      · have hret : r2.ret = (size.toNat : Int) := by rw [f7, hl]
        have hnz : size.toNat ≠ 0 := fun q => hs (hsz.2 q)
        have hmod : Int.tmod (size.toNat : Int) 3 = ((size.toNat % 3 : Nat) : Int) := by
          rw [Int.tmod_eq_emod_of_nonneg (by omega)]
          omega
        by_cases hm : size.toNat % 3 = 0
        · obtain ⟨ok, q1, q2⟩ : ∃ ok, (∀ m, size.toNat + 1 ≤ m → sgpCheck rx (size.toNat : Int) m 0#8 = some ok) ∧
              (ok = true ↔ WordsChecked 0xff#8 rx) := by
            have sp := fun m (hm' : size.toNat + 1 ≤ m) => sgpCheck_spec rx size.toNat hl.symm hm (by omega) (size.toNat / 3) 0 (by omega) m (by omega)
            by_cases hw : WordsChecked 0xff#8 rx
            · refine ⟨true, fun m hm' => ?_, by simp [hw]⟩
              obtain ⟨ok, a1, a2⟩ := sp m hm'
              have : ok = true := a2.2 (fun i _ hi => hw i hi)
              rw [this] at a1; exact a1
            · refine ⟨false, fun m hm' => ?_, by simp [hw]⟩
              obtain ⟨ok, a1, a2⟩ := sp m hm'
              have : ok = false := by
                cases ok
                · rfl
                · exact absurd (fun i hi => a2.1 rfl i (Nat.zero_le _) hi) hw
              rw [this] at a1; exact a1
          refine fin (if ok then .success else .crc8Mismatch) (start ⟨size.toNat + 1, fun m hm' => ?_⟩) ?_ ?_ ?_
          · show (if _ then _ else if _ then _ else _) = _
            rw [if_neg (by rw [hret]; simp), if_neg (by rw [hret, hmod, hm]; rintro (q | q) <;> omega), f6, hret, q1 m hm']
            rfl
          · simp only [hl, hm, ← q2]; cases ok <;> simp
          · simp only [hl]; cases ok <;> simp
          · simp only [hl, hm, ← q2]; cases ok <;> simp
        · refine fin .invalidByteCount (start ⟨0, fun m _ => ?_⟩) (by simp [hm]) (by simp [hl]) (by simp [hm])
          show (if _ then _ else if _ then _ else _) = _
          rw [if_neg (by rw [hret]; simp), if_pos (by rw [hret, hmod]; right; omega), f6]
      · refine fin .readError (start ⟨0, fun m _ => ?_⟩) (by simp [hl]) (by simp [hl]) (by simp [hl])
        show (if _ then _ else if _ then _ else _) = _
        rw [if_pos (by rw [f7]; omega), f6]
  · refine ⟨(r.h, .sendError, []), ev, o, k, [], ?_, g6, by simp [g4], by simpa using g3, g2, fun _ => ⟨rfl, rfl⟩, fun q => absurd q hk,
      fun q => absurd q hk⟩
    unfold sgpRead
    rw [hc]
    refine g1.bind ⟨0, fun m _ => ?_⟩
    show (if _ then _ else _) = _
    rw [if_pos (by rw [g5]; omega)]

/-- **C71 (part).** What the SGP4x functions make of the answer: the raw values, the feature set and the serial number are the
words of a successful answer, high byte first, without the checksums, and at most `length` bytes of the serial number are
written; the self test looks at the two lowest bits; without success nothing is changed. -/
theorem C71_sgp_values (E : Env) (h h' : Hw) (s : SgpSt) (res : Sgp) (b : List Byte) :
    let word := fun i => BitVec.ofNat 16 (256 * (byteAt b i).toNat + (byteAt b (i + 1)).toNat)
    (∀ comp, Returns (sgpRead E h 0x2619#16 (sgpParams comp) 6#8) (h', res, b) →
      Returns (sgpMeasure E h s comp) (h', if res = .success then { s with voc := word 0, nox := word 3 } else s, res)) ∧
    (Returns (sgpRead E h 0x202f#16 [] 3#8) (h', res, b) →
      Returns (sgpFeature E h s) (h', if res = .success then { s with feature := word 0 } else s, res)) ∧
    (Returns (sgpRead E h 0x280e#16 [] 3#8) (h', res, b) → ∃ res', Returns (sgpSelfTest E h) (h', res') ∧
      (res ≠ .success → res' = res) ∧
      (res = .success → (res' = .success ↔ (byteAt b 1).getLsbD 0 = false ∧ (byteAt b 1).getLsbD 1 = false) ∧
        (res' = .vocPixelError ↔ (byteAt b 1).getLsbD 0 = true) ∧
        (res' = .noxPixelError ↔ (byteAt b 1).getLsbD 0 = false ∧ (byteAt b 1).getLsbD 1 = true))) ∧
    (∀ length, Returns (sgpRead E h 0x3682#16 [] 9#8) (h', res, b) →
      Returns (sgpSerial E h length) (h', res, if res = .success then
        [byteAt b 0, byteAt b 1, byteAt b 3, byteAt b 4, byteAt b 6, byteAt b 7].take length.toNat else [])) := by
  intro word
  have hword : ∀ i, wordOf (byteAt b i) (byteAt b (i + 1)) = word i := fun i => wordOf_eq _ _
  refine ⟨fun comp q => ?_, fun q => ?_, fun q => ?_, fun length q => ?_⟩
  · have := q.map fun ((h, res, b) : Hw × Sgp × List Byte) => if res ≠ Sgp.success then (h, s, res)
      else (h, { s with voc := wordOf (byteAt b 0) (byteAt b 1), nox := wordOf (byteAt b 3) (byteAt b 4) }, .success)
    rw [← hword, ← hword]
    by_cases hr : res = .success
    · subst hr; exact this
    · simp only [if_neg hr]
      simp only [if_pos hr] at this
      exact this
  · have := q.map fun ((h, res, b) : Hw × Sgp × List Byte) => if res ≠ Sgp.success then (h, s, res)
      else (h, { s with feature := wordOf (byteAt b 0) (byteAt b 1) }, .success)
    rw [← hword]
    by_cases hr : res = .success
    · subst hr; exact this
    · simp only [if_neg hr]
      simp only [if_pos hr] at this
      exact this
  · refine ⟨_, q.map _, ?_, ?_⟩
    · intro hr
      show (if _ then _ else _) = _
      rw [if_pos hr]
    · intro hr
      have bits : ∀ x : Byte, (x &&& 0x1#8 ≠ 0#8 ↔ x.getLsbD 0 = true) ∧ (x &&& 0x2#8 ≠ 0#8 ↔ x.getLsbD 1 = true) := by decide +kernel
      have hb := bits (byteAt b 1)
      show ((if _ then _ else if _ then _ else if _ then _ else _) = _ ↔ _) ∧ ((if _ then _ else if _ then _ else if _ then _ else _) = _ ↔ _) ∧
        ((if _ then _ else if _ then _ else if _ then _ else _) = _ ↔ _)
      rw [if_neg (by simpa using hr)]
      simp only [hb.1, hb.2]
      cases (byteAt b 1).getLsbD 0 <;> cases (byteAt b 1).getLsbD 1 <;> simp
  · have := q.map fun ((h, res, b) : Hw × Sgp × List Byte) => if res ≠ Sgp.success then (h, res, []) else (h, .success, sgpCopy b 10 0 length.toNat)
    by_cases hr : res = .success
    · subst hr
      simp only [if_true]
      have e : ∀ n, sgpCopy b 10 0 n = [byteAt b 0, byteAt b 1, byteAt b 3, byteAt b 4, byteAt b 6, byteAt b 7].take n := by
        intro n
        match n with
        | 0 => simp [sgpCopy]
        | 1 => simp [sgpCopy]
        | 2 => simp [sgpCopy]
        | 3 => simp [sgpCopy]
        | 4 => simp [sgpCopy]
        | 5 => simp [sgpCopy]
        | n + 6 => simp [sgpCopy]
      rw [← e]
      exact this
    · simp only [if_neg hr]
      simp only [if_pos hr] at this
      exact this

/-- **C71 (part).** The parameters of a measurement are two words each with its right checksum: the ticks given, or those of 50 %
and 25 degrees. -/
theorem C71_sgp_params (comp : Option (Word × Word)) :
    (sgpParams comp).length = 6 ∧ WordsChecked 0xff#8 (sgpParams comp) ∧
    wordOf (byteAt (sgpParams comp) 0) (byteAt (sgpParams comp) 1) = (comp.getD (0x8000#16, 0x6666#16)).1 ∧
    wordOf (byteAt (sgpParams comp) 3) (byteAt (sgpParams comp) 4) = (comp.getD (0x8000#16, 0x6666#16)).2 := by
  have hw : ∀ x : Word, wordOf ((x >>> 8).truncate 8) (x.truncate 8) = x := by
    intro x
    have hx := x.isLt
    rw [wordOf_eq]
    apply BitVec.eq_of_toNat_eq
    simp [BitVec.toNat_ushiftRight, Nat.shiftRight_eq_div_pow]
    omega
  cases comp with
  | none =>
    refine ⟨rfl, fun j hj => ?_, by decide, by decide⟩
    have : j = 0 ∨ j = 1 := by
      have : 3 * j + 2 < 6 := hj
      omega
    rcases this with rfl | rfl <;> decide +kernel
  | some c =>
    obtain ⟨rh, t⟩ := c
    refine ⟨rfl, fun j hj => ?_, hw rh, hw t⟩
    have hs := fun l => (Crc.C47_sensirion_crc8_standard l).2.2
    have : j = 0 ∨ j = 1 := by
      have : 3 * j + 2 < 6 := hj
      omega
    rcases this with rfl | rfl
    · show Crc.sgp4xCrc8 _ = _
      rw [hs]; rfl
    · show Crc.sgp4xCrc8 _ = _
      rw [hs]; rfl

/-! ## CCS811 -/

/-- **C71 (part).** `CCS811Class::getData`: register 2 is read once; the values change only if all four bytes came, and then to
the two words read. -/
theorem C71_ccs_data_partial (E : Env) (hE : SingleMaster E) (h : Hw) (hi : Idle h) (a : Byte) :
    ∃ r ev o k rx, Returns (ccsData E h a) r ∧ Idle r.1 ∧ r.1.trace = h.trace ++ ev ∧ FromSlaves E h.trace ev ∧
      Transaction a [0x02#8] 4 ev o k rx ∧
      (rx.length = 4 → r.2 = some (BitVec.ofNat 16 (256 * (byteAt rx 0).toNat + (byteAt rx 1).toNat),
        BitVec.ofNat 16 (256 * (byteAt rx 2).toNat + (byteAt rx 3).toNat))) ∧
      (rx.length ≠ 4 → r.2 = none) := by
  obtain ⟨ev, o, k, rx, r, g1, g2, g3, g4, g5, g6, g7, g8, g9, g10, g11⟩ := C70_cmdRead_partial E hE h hi a 0x02#8 4 (by decide)
  have hl := len8 (n := rx.length) (k := 4) (by omega) (by decide)
  refine ⟨_, ev, o, k, rx, g1.map _, g5, g4, g3, g2, fun q => ?_, fun q => ?_⟩
  · show (if _ then _ else _) = _
    rw [if_neg (by rw [g7]; simpa using hl.2 q), g6, wordOf_eq, wordOf_eq]
  · show (if _ then _ else _) = _
    rw [if_pos (by rw [g7]; exact fun w => q (hl.1 w))]

/-- **C71 (violated part).** `CCS811Class::getBaseline` does not look at the result of the transfer: if the sensor does not
acknowledge, it returns what happened to be on the stack, whatever that is. (`readStatus` and `readErrorID` are written in
the same way.) If both bytes come, it is the word read, and `setBaseline` writes the same two bytes. -/
theorem C71_ccs_baseline (E : Env) (hE : SingleMaster E) (h : Hw) (hi : Idle h) (a : Byte) (j0 j1 : Byte) :
    (∃ r ev o k rx, Returns (ccsGetBaseline E h a [j0, j1]) r ∧ Transaction a [0x11#8] 2 ev o k rx ∧ FromSlaves E h.trace ev ∧
      r.1.trace = h.trace ++ ev ∧
      (rx = [] → r.2 = BitVec.ofNat 16 (256 * j0.toNat + j1.toNat)) ∧
      (∀ x y, rx = [x, y] → r.2 = BitVec.ofNat 16 (256 * x.toNat + y.toNat))) ∧
    (∀ x y : Byte, ∃ r ev o k, Returns (ccsSetBaseline E h a (BitVec.ofNat 16 (256 * x.toNat + y.toNat))) r ∧
      Transaction a [0x11#8, x, y] 0 ev o k [] ∧ FromSlaves E h.trace ev ∧ r.trace = h.trace ++ ev) := by
  constructor
  · obtain ⟨ev, o, k, rx, r, g1, g2, g3, g4, g5, g6, g7, g8, g9, g10, g11⟩ := C70_cmdRead_partial E hE h hi a 0x11#8 2 (by decide)
    refine ⟨_, ev, o, k, rx, g1.map _, g2, g3, g4, fun q => ?_, fun x y q => ?_⟩
    · show wordOf _ _ = _
      rw [g6, q, ← wordOf_eq]; rfl
    · show wordOf _ _ = _
      rw [g6, q, ← wordOf_eq]; rfl
  · intro x y
    have hx := x.isLt
    have hy := y.isLt
    have e1 : ((BitVec.ofNat 16 (256 * x.toNat + y.toNat)) >>> 8).truncate 8 = x := by
      apply BitVec.eq_of_toNat_eq
      simp [BitVec.toNat_ushiftRight, Nat.shiftRight_eq_div_pow]
      omega
    have e2 : (BitVec.ofNat 16 (256 * x.toNat + y.toNat)).truncate 8 = y := by
      apply BitVec.eq_of_toNat_eq
      simp
      omega
    obtain ⟨ev, o, k, r, g1, g2, g3, g4, g5, g6, g7, g8, g9⟩ := C70_send_partial E hE h hi a [0x11#8, x, y] (by simp)
    refine ⟨r.h, ev, o, k, ?_, g2, g3, g4⟩
    unfold ccsSetBaseline
    rw [e1, e2]
    exact g1.map _

/-! ## BH1750 -/

theorem bhSend_spec (E : Env) (hE : SingleMaster E) (h : Hw) (hi : Idle h) (a b : Byte) :
    ∃ ev o k h', Returns (bhSend E h a b) (h', report o) ∧ Transaction a [b] 0 ev o k [] ∧ FromSlaves E h.trace ev ∧
      h'.trace = h.trace ++ ev ∧ Idle h' ∧ o ≠ .lost := by
  obtain ⟨ev, o, k, rx, s, h1, h2, ho⟩ := call_spec E hE h hi a [b] 0 (Or.inl (List.cons_ne_nil _ _))
  have hrx := (transaction_counts (Or.inl (List.cons_ne_nil b [])) h2.bus).2.2.2.1 rfl
  subst hrx
  refine ⟨ev, o, k, s.h, ?_, h2.bus, h2.slaves, h2.trace, h2.idle, ho⟩
  rw [← h2.status]
  exact h1.map _

theorem report_done (o : Outcome) : report o = .done ↔ o = .done := by cases o <;> simp [report]

/-- **C71 (part).** `BH1750::configure`: one transaction with the mode; true exactly if the sensor accepted it, and only then the
mode is remembered. -/
theorem C71_bh_configure_partial (E : Env) (hE : SingleMaster E) (clk : Clk) (w : Wd) (hi : Idle w.h) (s : Bh) (mode : BhMode)
    (hm : mode ≠ .unconfigured) :
    ∃ r ev o k, Returns (bhConfigure E clk w s mode) r ∧ Idle r.1.h ∧ r.1.h.trace = w.h.trace ++ ev ∧ FromSlaves E w.h.trace ev ∧
      Transaction s.addr [mode.code] 0 ev o k [] ∧ (r.2.2 = true ↔ o = .done) ∧
      r.2.1 = if o = .done then { s with mode := mode, last := millis clk w.n } else s := by
  obtain ⟨ev, o, k, h', g1, g2, g3, g4, g5, g6⟩ := bhSend_spec E hE w.h hi s.addr mode.code
  by_cases ho : o = .done
  · refine ⟨(⟨h', w.n + 1⟩, { s with mode := mode, last := millis clk w.n }, true), ev, o, k, ?_, g5, g4, g3, g2, by simp [ho], by rw [if_pos ho]⟩
    unfold bhConfigure
    simp only [if_neg hm]
    have := g1.map fun ((h, ack) : Hw × Status) => if ack = Status.done then ((⟨h, w.n + 1⟩ : Wd), { s with mode := mode, last := millis clk w.n }, true) else (⟨h, w.n⟩, s, false)
    simp only [if_pos ((report_done o).2 ho)] at this
    exact this
  · refine ⟨(⟨h', w.n⟩, s, false), ev, o, k, ?_, g5, g4, g3, g2, by simp [ho], by rw [if_neg ho]⟩
    unfold bhConfigure
    simp only [if_neg hm]
    have := g1.map fun ((h, ack) : Hw × Status) => if ack = Status.done then ((⟨h, w.n + 1⟩ : Wd), { s with mode := mode, last := millis clk w.n }, true) else (⟨h, w.n⟩, s, false)
    simp only [if_neg (fun q => ho ((report_done o).1 q))] at this
    exact this

/-- **C71 (violated part).** `BH1750::setMTreg` in range: three transactions with the upper three bits, the lower five bits and the
mode. The result depends on the third alone: it is true although the sensor refused the two that carry the value. -/
theorem C71_bh_mtreg (E : Env) (hE : SingleMaster E) (h : Hw) (hi : Idle h) (s : Bh) (mt : Byte) :
    ((mt.toNat < 32 ∨ mt.toNat = 255) → Returns (bhSetMTreg E h s mt) (h, s, false)) ∧
    (32 ≤ mt.toNat ∧ mt.toNat ≤ 254 → ∃ r ev1 o1 k1 ev2 o2 k2 ev3 o3 k3, Returns (bhSetMTreg E h s mt) r ∧ Idle r.1 ∧
      r.1.trace = h.trace ++ ev1 ++ ev2 ++ ev3 ∧ FromSlaves E h.trace (ev1 ++ ev2 ++ ev3) ∧
      Transaction s.addr [BitVec.ofNat 8 (64 + mt.toNat / 32)] 0 ev1 o1 k1 [] ∧
      Transaction s.addr [BitVec.ofNat 8 (96 + mt.toNat % 32)] 0 ev2 o2 k2 [] ∧
      Transaction s.addr [s.mode.code] 0 ev3 o3 k3 [] ∧
      (r.2.2 = true ↔ o3 = .done) ∧ r.2.1 = if o3 = .done then { s with mtreg := mt } else s) := by
  have hm := mt.isLt
  constructor
  · intro q
    refine ⟨0, fun m _ => ?_⟩
    unfold bhSetMTreg
    rw [if_pos]
    rcases q with q | q
    · left; rw [BitVec.le_def]; show _ ≤ 31; omega
    · right; rw [gt_iff_lt, BitVec.lt_def]; show 254 < _; omega
  · rintro ⟨q1, q2⟩
    obtain ⟨ev1, o1, k1, h1, a1, a2, a3, a4, a5, a6⟩ := bhSend_spec E hE h hi s.addr (BitVec.ofNat 8 (64 + mt.toNat / 32))
    obtain ⟨ev2, o2, k2, h2, b1, b2, b3, b4, b5, b6⟩ := bhSend_spec E hE h1 a5 s.addr (BitVec.ofNat 8 (96 + mt.toNat % 32))
    obtain ⟨ev3, o3, k3, h3, c1, c2, c3, c4, c5, c6⟩ := bhSend_spec E hE h2 b5 s.addr s.mode.code
    have codes : ∀ x : Byte, 0b01000000#8 ||| x >>> 5 = BitVec.ofNat 8 (64 + x.toNat / 32) ∧
        0b01100000#8 ||| (x &&& 0b11111#8) = BitVec.ofNat 8 (96 + x.toNat % 32) := by decide +kernel
    have hc := codes mt
    refine ⟨(h3, if o3 = .done then { s with mtreg := mt } else s, decide (o3 = .done)), ev1, o1, k1, ev2, o2, k2, ev3, o3, k3, ?_, c5,
      by rw [c4, b4, a4], fromSlaves_append _ _ _ (fromSlaves_append _ _ _ a3 (a4 ▸ b3)) (by rw [b4, a4] at c3; simpa using c3), a2, b2, c2,
      by simp, rfl⟩
    unfold bhSetMTreg
    simp only [if_neg (show ¬ (mt ≤ 31#8 ∨ mt > 254#8) by
      rw [BitVec.le_def, gt_iff_lt, BitVec.lt_def]
      show ¬ (_ ≤ 31 ∨ 254 < _)
      omega), hc.1, hc.2]
    refine a1.bind (b1.bind ?_)
    have := c1.map fun ((h, ack) : Hw × Status) => if ack = Status.done then (h, { s with mtreg := mt }, true) else (h, s, false)
    by_cases ho : o3 = .done
    · simp only [if_pos ho, decide_eq_true ho]
      simp only [if_pos ((report_done o3).2 ho)] at this
      exact this
    · simp only [if_neg ho, decide_eq_false ho]
      simp only [if_neg (fun q => ho ((report_done o3).1 q))] at this
      exact this

/-- **C71 (part).** `BH1750::readLightLevel`, the raw value: −2 without a mode, else one reading of two bytes: −1 or the word. -/
theorem C71_bh_raw_partial (E : Env) (hE : SingleMaster E) (clk : Clk) (w : Wd) (hi : Idle w.h) (s : Bh) :
    (s.mode = .unconfigured → Returns (bhRaw E clk w s) (w, s, -2)) ∧
    (s.mode ≠ .unconfigured → ∃ r ev o k rx, Returns (bhRaw E clk w s) r ∧ Idle r.1.h ∧ r.1.h.trace = w.h.trace ++ ev ∧
      FromSlaves E w.h.trace ev ∧ Transaction s.addr [] 2 ev o k rx ∧ r.2.1 = { s with last := millis clk w.n } ∧
      (∀ x y, rx = [x, y] → r.2.2 = 256 * (x.toNat : Int) + y.toNat) ∧ (rx.length ≠ 2 → r.2.2 = -1)) := by
  constructor
  · intro q
    exact ⟨0, fun m _ => by unfold bhRaw; rw [if_pos q]⟩
  · intro q
    obtain ⟨ev, o, k, rx, r, g1, g2, g3, g4, g5, g6, g7, g8, g9, g10, g11⟩ := C70_read_partial E hE w.h hi s.addr 2 (by decide)
    refine ⟨(⟨r.h, w.n + 1⟩, { s with last := millis clk w.n },
      if r.ret = 2 then ((wordOf (byteAt r.rx 0) (byteAt r.rx 1)).toNat : Int) else -1), ev, o, k, rx, ?_, g5, g4, g3, g2, rfl,
      fun x y hx => ?_, fun hx => ?_⟩
    · unfold bhRaw
      simp only [if_neg q]
      exact g1.map _
    · show (if _ then _ else _) = _
      have h1 := x.isLt
      have h2 := y.isLt
      rw [if_pos (by rw [g7, hx]; rfl), g6, hx, wordOf_eq, BitVec.toNat_ofNat]
      show (((256 * x.toNat + y.toNat) % 2 ^ 16 : Nat) : Int) = _
      omega
    · show (if _ then _ else _) = _
      rw [if_neg (by rw [g7]; omega)]

/-- **C71 (part).** `BH1750::measurementReady`: true exactly if since the last reading or configuration (less than 2^32 ms ago) at
least the measurement time has passed: 120 (at most 180) or 16 (24) ms, scaled by the measurement time register. -/
theorem C71_bh_ready (t0 t : Nat) (h1 : t0 ≤ t) (h2 : t < t0 + 2 ^ 32) (s : Bh) (hs : s.last = BitVec.ofNat 32 t0)
    (hm : s.mode ≠ .unconfigured) (maxWait : Bool) :
    bhReady (BitVec.ofNat 32 t) s maxWait = true ↔
      (match s.mode == .contLow || s.mode == .onceLow, maxWait with
        | false, false => 120 | false, true => 180 | true, false => 16 | true, true => 24) * s.mtreg.toNat / 69 ≤ t - t0 := by
  have hmt := s.mtreg.isLt
  have e : (BitVec.ofNat 32 t - BitVec.ofNat 32 t0).toNat = t - t0 := by
    rw [BitVec.toNat_sub, BitVec.toNat_ofNat, BitVec.toNat_ofNat]
    omega
  have key : ∀ d, d < 2 ^ 32 → (BitVec.ofNat 32 t - BitVec.ofNat 32 t0 ≥ BitVec.ofNat 32 d ↔ d ≤ t - t0) := by
    intro d hd
    rw [ge_iff_le, BitVec.le_def, e, BitVec.toNat_ofNat, Nat.mod_eq_of_lt hd]
  unfold bhReady
  rw [decide_eq_true_iff, hs]
  unfold bhDelay
  cases hmode : s.mode with
  | unconfigured => exact absurd hmode hm
  | _ => cases maxWait <;> exact key _ (by simp only [if_true, if_false, Bool.false_eq_true]; omega)

/-! ## Concrete cases -/

/-- A slave that gives the bytes `l` in turn (counted since the last START) and acknowledges as `ack` says. -/
def slave (ack : List BusEv → Bool) (l : List Byte) : Env :=
  ⟨ack, fun t => byteAt l ((t.reverse.takeWhile fun e => match e with | .inp _ _ => true | _ => false).length), fun _ => none⟩

theorem slave_quiet (ack l) : Quiet (slave ack l) ∧ SingleMaster (slave ack l) := ⟨fun _ => rfl, fun t => by simp [slave]⟩

/-- A sensor that is still measuring refuses its address for reading until the third attempt. -/
def busySht : Env := slave (fun t => t.length < 3 ∨ 10 ≤ t.length) [0xbe#8, 0xef#8, 0x92#8, 0xbe#8, 0xef#8, 0x92#8]

example : SingleMaster busySht ∧ Idle fresh ∧ Passes (fun i => 10 * i) 10 ∧ (fun i => 10 * i) 0 + 300 + 10 < 2 ^ 32 :=
  ⟨(slave_quiet _ _).2, ⟨Or.inl rfl, rfl⟩, fun i => ⟨by dsimp only; omega, by dsimp only; omega⟩, by decide⟩

/-- `C71_sht4x_partial` and `C71_sht4x_values` applied: the measurement is repeated until the sensor answers… -/
example : (sht4xMeasure busySht (fun i => 10 * i) ⟨fresh, 0⟩ 60).map (fun r => (r.2, r.1.n)) =
    some (some (0xbeef#16, 0xbeef#16), 4) := by decide +kernel

/-- …and a wrong checksum is found. -/
example : (sht4xMeasure (slave (fun _ => true) [0xbe#8, 0xef#8, 0x92#8, 0xbe#8, 0xef#8, 0x93#8]) (fun i => 10 * i) ⟨fresh, 0⟩ 60).map (·.2) =
    some none := by decide +kernel

/-- `C71_sht4x_wrap` applied: the sensor would answer at once. -/
example : (sht4xMeasure (slave (fun _ => true) [0xbe#8, 0xef#8, 0x92#8, 0xbe#8, 0xef#8, 0x92#8]) (fun i => 4294967200 + 10 * i) ⟨fresh, 0⟩ 60).map
    (fun r => (r.2, r.1.h.trace)) = some (none, [.start, .out 0x88#8 true, .out 0xfd#8 true, .stop]) := by decide +kernel

/-- `C71_sht4x_init` applied: the reset is refused, yet `init` is true. -/
example : (sht4xInit (slave (fun t => t.length < 2) []) ⟨fresh, 0⟩ 60).map (fun r => (r.2, r.1.h.trace)) =
    some (true, [.start, .out 0x88#8 true, .out 0x94#8 false, .stop]) := by decide +kernel

/-- `C71_sht2x_single_attempt` applied: the sensor would answer at the second attempt, within the time. -/
example : (sht2xRead (slave (fun t => 5 ≤ t.length) [0x68#8, 0x3a#8, 0x7c#8]) (fun i => 10 * i) ⟨fresh, 0⟩ true 0xe3#8 60).map
    (fun r => (r.2, r.1.h.trace)) = some ((true, 0#16), [.start, .out 0x80#8 false, .stop]) := by decide +kernel

example : (sht2xRead (slave (fun _ => true) [0x68#8, 0x3a#8, 0x7c#8]) (fun i => 10 * i) ⟨fresh, 0⟩ true 0xe3#8 60).map (·.2) =
    some (true, 0x683a#16) := by decide +kernel

/-- `C71_sht2x_init_partial` applied. -/
example : (sht2xInit (slave (fun _ => true) [0x3b#8]) ⟨fresh, 0⟩ false 60).map (fun r => (r.2, r.1.h.trace)) =
    some (true, [.start, .out 0x80#8 true, .out 0xe7#8 true, .restart, .out 0x81#8 true, .inp 0x3b#8 false, .stop,
      .start, .out 0x80#8 true, .out 0xe6#8 true, .out 0x3a#8 true, .stop]) := by decide +kernel

/-- `C71_sht2x_values`: 24.69 degrees, 44.84 %. -/
example : sht2xTemperature 0x683a#16 = -27300 ∧ sht2xTemperature 0x6838#16 = 2468 ∧ sht2xHumidity 0x683a#16 = 4488 := by decide +kernel

/-- `C71_sgp_read_partial` and `C71_sgp_values` applied: a good answer, a wrong checksum, a refusal. -/
example : (sgpMeasure (slave (fun _ => true) [0xbe#8, 0xef#8, 0x92#8, 0x12#8, 0x34#8, 0x37#8]) fresh ⟨1#16, 2#16, 3#16⟩ (some (0xbeef#16, 0x1234#16)) 60).map
    (fun r => (r.2.1.voc, r.2.1.nox, r.2.2)) = some (0xbeef#16, 0x1234#16, .success) ∧
    (sgpMeasure (slave (fun _ => true) [0xbe#8, 0xef#8, 0x92#8, 0x12#8, 0x34#8, 0x36#8]) fresh ⟨1#16, 2#16, 3#16⟩ none 60).map
    (fun r => (r.2.1.voc, r.2.1.nox, r.2.2)) = some (1#16, 2#16, .crc8Mismatch) ∧
    (sgpMeasure (slave (fun t => t.length < 3) []) fresh ⟨1#16, 2#16, 3#16⟩ none 60).map
    (fun r => (r.2.1.voc, r.2.1.nox, r.2.2)) = some (1#16, 2#16, .sendError) := by decide +kernel

example : (sgpSelfTest (slave (fun _ => true) [0xd4#8, 0x02#8, (Crc.sgp4xCrc8 [0xd4#8, 0x02#8])]) fresh 60).map (·.2) = some .noxPixelError ∧
    (sgpSerial (slave (fun _ => true) [0xbe#8, 0xef#8, 0x92#8, 0x12#8, 0x34#8, 0x37#8, 0xbe#8, 0xef#8, 0x92#8]) fresh 5#8 60).map (·.2) =
      some (.success, [0xbe#8, 0xef#8, 0x12#8, 0x34#8, 0xbe#8]) ∧
    (sgpFeature (slave (fun _ => true) [0xbe#8, 0xef#8, 0x92#8]) fresh ⟨1#16, 2#16, 3#16⟩ 60).map (fun r => (r.2.1.feature, r.2.2)) =
      some (0xbeef#16, .success) := by decide +kernel

/-- `C71_sgp_params` applied. -/
example : sgpParams (some (0xbeef#16, 0x1234#16)) = [0xbe#8, 0xef#8, 0x92#8, 0x12#8, 0x34#8, 0x37#8] := by decide +kernel

/-- `C71_ccs_data_partial` applied: complete, and refused. -/
example : (ccsData (slave (fun _ => true) [1#8, 0x90#8, 0#8, 0x20#8]) fresh 0x5a#8 60).map (·.2) = some (some (0x190#16, 0x20#16)) ∧
    (ccsData (slave (fun t => t.length < 4) [1#8, 0x90#8, 0#8, 0x20#8]) fresh 0x5a#8 60).map (·.2) = some none := by decide +kernel

/-- `C71_ccs_baseline` applied: nobody answers, and the stack is returned. -/
example : (ccsGetBaseline (slave (fun _ => false) []) fresh 0x5a#8 [0xde#8, 0xad#8] 60).map (·.2) = some 0xdead#16 ∧
    (ccsGetBaseline (slave (fun _ => true) [0x45#8, 0x67#8]) fresh 0x5a#8 [0xde#8, 0xad#8] 60).map (·.2) = some 0x4567#16 ∧
    (ccsSetBaseline (slave (fun _ => true) []) fresh 0x5a#8 0x4567#16 60).map (·.trace) =
      some [.start, .out 0xb4#8 true, .out 0x11#8 true, .out 0x45#8 true, .out 0x67#8 true, .stop] := by decide +kernel

/-- A light sensor, configured 100 ms before the counter of the milliseconds wraps. -/
def light : Bh := ⟨0x23#8, 69#8, .contHigh, 0xffffff9c#32⟩

/-- `C71_bh_configure_partial` applied. -/
example : (bhConfigure (slave (fun _ => true) []) (fun _ => 500) ⟨fresh, 0⟩ light .contHigh 60).map (fun r => (r.2.2, r.2.1.last)) = some (true, 500#32) ∧
    (bhConfigure (slave (fun t => t.length < 2) []) (fun _ => 500) ⟨fresh, 0⟩ light .contHigh 60).map (fun r => (r.2.2, r.2.1.last)) = some (false, 0xffffff9c#32) := by
  decide +kernel

/-- `C71_bh_mtreg` applied: the first two transactions are refused, the result is true. -/
example : (bhSetMTreg (slave (fun t => 7 ≤ t.length) []) fresh light 138#8 60).map (fun r => (r.2.2, r.1.trace)) =
    some (true, [.start, .out 0x46#8 false, .stop, .start, .out 0x46#8 false, .stop, .start, .out 0x46#8 true, .out light.mode.code true, .stop]) ∧
    (bhSetMTreg (slave (fun _ => true) []) fresh light 138#8 60).map (fun r => (r.2.2, r.1.trace)) =
    some (true, [.start, .out 0x46#8 true, .out 0x44#8 true, .stop, .start, .out 0x46#8 true, .out 0x6a#8 true, .stop,
      .start, .out 0x46#8 true, .out light.mode.code true, .stop]) := by decide +kernel

/-- `C71_bh_raw_partial` applied. -/
example : (bhRaw (slave (fun _ => true) [0x01#8, 0x02#8]) (fun _ => 500) ⟨fresh, 0⟩ light 60).map (·.2.2) = some 258 ∧
    (bhRaw (slave (fun _ => false) []) (fun _ => 500) ⟨fresh, 0⟩ light 60).map (·.2.2) = some (-1) := by decide +kernel

/-- `C71_bh_ready` applied, over the wrap: ready 120 ms after the configuration. -/
example : light.last = BitVec.ofNat 32 (2 ^ 32 - 100) ∧ bhReady (BitVec.ofNat 32 (2 ^ 32 + 19)) light false = false ∧
    bhReady (BitVec.ofNat 32 (2 ^ 32 + 20)) light false = true := by decide +kernel

end Verif.I2c
