import Verif.Pin.Fatal
import Verif.Pin.Props74

/-!
# C114: after a fatal error the device leaves the bus and blinks
-/

namespace Verif.Pin

open Verif Spec

/-! ## Specification -/

/-- The pin drives nothing and pulls nothing: it is a general purpose pin, an input, without pull-up and pull-down. In particular it is not the match output of
a timer, which is how the bus is driven. -/
structure Released (s : State) (p n : Nat) : Prop where
  function : number p n .pio = some (reg s (.pio p n) &&& 7#32).toNat
  input : (s.port p).dir.getLsbD n = false
  noPull : reg s (.pio p n) &&& 0x18#32 = 0#32

/-- The pin is a general purpose output, its level is the one written to it. -/
structure Driven (s : State) (p n : Nat) : Prop where
  function : number p n .pio = some (reg s (.pio p n) &&& 7#32).toNat
  output : (s.port p).dir.getLsbD n = true

/-- The configuration, the direction and the level of this pin are as before. -/
structure Untouched (s s' : State) (p n : Nat) : Prop where
  config : reg s' (.pio p n) = reg s (.pio p n)
  dir : (s'.port p).dir.getLsbD n = (s.port p).dir.getLsbD n
  level : digitalRead s' (constant p n) = digitalRead s (constant p n)

/-- Blinking: on for the second half of each period of `2 * half` clocks. -/
def lit (half clocks : Nat) : Prop := clocks % (2 * half) = 0 ∨ half < clocks % (2 * half)

instance (half clocks : Nat) : Decidable (lit half clocks) := by unfold lit; infer_instance

/-! ## Lemmas -/

theorem clocks_on {l v : U32} : ∀ n, ∃ v', ({ load := l, val := v, enabled := true } : SysTick).clocks n = { load := l, val := v', enabled := true } := by
  intro n
  induction n with
  | zero => exact ⟨v, rfl⟩
  | succ n ih =>
    obtain ⟨v', h⟩ := ih
    refine ⟨if v' = 0#32 then l else v' - 1#32, ?_⟩
    show (SysTick.clocks _ n).clock = _
    rw [h]; rfl

theorem clocks_add (t : SysTick) (a : Nat) : ∀ b, (t.clocks a).clocks b = t.clocks (a + b) := by
  intro b
  induction b with
  | zero => rfl
  | succ b ih => show ((t.clocks a).clocks b).clock = (t.clocks (a + b)).clock; rw [ih]

/-- The value of SysTick. -/
theorem clocks_val : ∀ n, ((({ load := 0xFFFFFF#32, val := 0#32, enabled := true } : SysTick).clocks n).val).toNat = (16777216 - n % 16777216) % 16777216 := by
  intro n
  induction n with
  | zero => rfl
  | succ n ih =>
    obtain ⟨v, h⟩ := clocks_on (l := 0xFFFFFF#32) (v := 0#32) n
    rw [h] at ih
    show (SysTick.val (SysTick.clock (SysTick.clocks _ n))).toNat = _
    rw [h]
    dsimp only at ih
    show (if v = 0#32 then 0xFFFFFF#32 else v - 1#32).toNat = _
    by_cases hv : v = 0#32
    · subst hv
      rw [if_pos rfl]
      have : (0#32).toNat = 0 := rfl
      rw [this] at ih
      have : (0xFFFFFF#32).toNat = 16777215 := rfl
      omega
    · rw [if_neg hv]
      have h0 : v.toNat ≠ 0 := fun q => hv (BitVec.eq_of_toNat_eq q)
      have h32 := v.isLt
      rw [BitVec.toNat_sub]
      have : (1#32).toNat = 1 := rfl
      rw [this]
      omega

theorem config_val (t : SysTick) : sysTickConfig t 0x1000000#32 = { load := 0xFFFFFF#32, val := 0#32, enabled := true } := by
  unfold sysTickConfig
  rw [if_neg (by decide)]
  rfl

/-- One bit of a number, as the division by its value. -/
theorem bit_zero (v : U32) (k : Nat) (hk : k < 32) : v &&& BitVec.ofNat 32 (2 ^ k) = 0#32 ↔ v.toNat / 2 ^ k % 2 = 0 := by
  have h1 : v.toNat / 2 ^ k % 2 = 0 ↔ v.getLsbD k = false := by
    rw [BitVec.getLsbD, Nat.testBit_eq_decide_div_mod_eq]
    simp
  rw [h1]
  have hb : ∀ i, i < 32 → (BitVec.ofNat 32 (2 ^ k)).getLsbD i = decide (i = k) := by
    intro i hi
    rw [BitVec.getLsbD_ofNat, Nat.testBit_two_pow]
    simp [hi, eq_comm]
  constructor
  · intro h
    have := congrArg (fun b : U32 => b.getLsbD k) h
    simp only [BitVec.getLsbD_and, hb k hk] at this
    simpa using this
  · intro h
    apply BitVec.eq_of_getLsbD_eq
    intro i hi
    rw [BitVec.getLsbD_and, hb i hi]
    by_cases q : i = k
    · subst q; simp [h]
    · simp [q]

theorem lit_22 (n : Nat) : ((({ load := 0xFFFFFF#32, val := 0#32, enabled := true } : SysTick).clocks n).val &&& 0x400000#32 = 0#32) ↔ lit 4194304 n := by
  rw [show (0x400000#32) = BitVec.ofNat 32 (2 ^ 22) from by decide, bit_zero _ 22 (by decide), clocks_val]
  unfold lit
  omega

theorem lit_21 (n : Nat) : ((({ load := 0xFFFFFF#32, val := 0#32, enabled := true } : SysTick).clocks n).val &&& 0x200000#32 = 0#32) ↔ lit 2097152 n := by
  rw [show (0x200000#32) = BitVec.ofNat 32 (2 ^ 21) from by decide, bit_zero _ 21 (by decide), clocks_val]
  unfold lit
  omega

theorem pio_small : ∀ x ∈ pins, ∃ k, number x.1 x.2 .pio = some k ∧ k < 2 := by
  have : ∀ x ∈ pins, (match number x.1 x.2 .pio with | some k => decide (k < 2) | none => false) = true := by decide +kernel
  intro x hx
  have h := this x hx
  revert h
  cases number x.1 x.2 .pio with
  | none => intro h; cases h
  | some k => intro h; exact ⟨k, rfl, by simpa using h⟩

/-- Plain input and output. -/
theorem plain (s : State) (p n : Nat) (hp : (p, n) ∈ pins) (out : Bool) :
    ∃ s', pinMode s (constant p n) (if out then OUTPUT else INPUT) = some s' ∧ Directed s s' p n out ∧
      number p n .pio = some (reg s' (.pio p n) &&& 7#32).toNat ∧ reg s' (.pio p n) &&& 0x18#32 = 0#32 ∧
      ∀ x ∈ pins, x ≠ (p, n) → reg s' (.pio x.1 x.2) = reg s (.pio x.1 x.2) := by
  obtain ⟨k, hk, hk2⟩ := pio_small _ hp
  dsimp only at hk
  have hv : ∀ a : Bool, (number p n .pio = some ((((if a then 0#32 ||| 0x80#32 else 0#32) ||| BitVec.ofNat 32 k) &&& 7#32).toNat)) ∧
      ((if a then 0#32 ||| 0x80#32 else 0#32) ||| BitVec.ofNat 32 k) &&& 0x18#32 = 0#32 := by
    intro a
    rw [hk]
    rcases (show k = 0 ∨ k = 1 by omega) with h | h <;> subst h <;> cases a <;> decide
  have main : ∀ u : Use, u.wanted = .pio → u.isOutput = out → u.mode 0#32 = (if out then OUTPUT else INPUT) →
      ∃ s', pinMode s (constant p n) (if out then OUTPUT else INPUT) = some s' ∧ Directed s s' p n out ∧
      number p n .pio = some (reg s' (.pio p n) &&& 7#32).toNat ∧ reg s' (.pio p n) &&& 0x18#32 = 0#32 ∧
      ∀ x ∈ pins, x ≠ (p, n) → reg s' (.pio x.1 x.2) = reg s (.pio x.1 x.2) := by
    intro u hw ho hm
    have h := C74_pin_mode s p n hp u 0#32
    rw [hw, hk] at h
    obtain ⟨s', e, d, c1, -, c3⟩ := h
    rw [hm] at e
    rw [ho] at d
    refine ⟨s', e, d, ?_, ?_, c3⟩
    · rw [c1]
      have := (hv (analog p n)).1
      cases ha : analog p n <;> rw [ha] at this <;> simpa using this
    · rw [c1]
      have := (hv (analog p n)).2
      cases ha : analog p n <;> rw [ha] at this <;> simpa using this
  cases out
  · exact main (.input .none) rfl rfl (by decide)
  · exact main (.output .none) rfl rfl (by decide)

/-- The loop. -/
theorem blink_spec (mask : U32) (half : Nat) (p n : Nat) (hp : (p, n) ∈ pins) (c : FatalPins) (hc : c.fatalErrorPin = constant p n)
    (hm : ∀ T, ((({ load := 0xFFFFFF#32, val := 0#32, enabled := true } : SysTick).clocks T).val &&& mask = 0#32) ↔ lit half T) :
    ∀ (rounds : List Nat) (T : Nat) (s : State), ∃ s' t', blink c mask rounds (s, ({ load := 0xFFFFFF#32, val := 0#32, enabled := true } : SysTick).clocks T) = (s', t') ∧
      s'.iocon = s.iocon ∧ (∀ q, (s'.port q).dir = (s.port q).dir) ∧
      (∀ x ∈ pins, x ≠ (p, n) → digitalRead s' (constant x.1 x.2) = digitalRead s (constant x.1 x.2)) ∧
      (rounds ≠ [] → digitalRead s' (constant p n) = decide (lit half (T + rounds.sum))) := by
  intro rounds
  induction rounds with
  | nil =>
    intro T s
    exact ⟨s, _, rfl, rfl, fun _ => rfl, fun _ _ _ => rfl, fun h => absurd rfl h⟩
  | cons r rounds ih =>
    intro T s
    have hd : (decide (((({ load := 0xFFFFFF#32, val := 0#32, enabled := true } : SysTick).clocks (T + r)).val &&& mask = 0#32))) = decide (lit half (T + r)) :=
      decide_eq_decide.mpr (hm _)
    obtain ⟨s', t', e, i1, i2, i3, i4⟩ := ih (T + r) (digitalWrite s (constant p n) (decide (lit half (T + r))))
    obtain ⟨w1, w2, w3, w4⟩ := C74_write_read s p n hp (decide (lit half (T + r)))
    refine ⟨s', t', ?_, i1.trans w3, fun q => (i2 q).trans (w4 q).1, fun x hx hne => (i3 x hx hne).trans (w2 x hx hne), fun _ => ?_⟩
    · show blink c mask rounds (digitalWrite s c.fatalErrorPin (decide (((SysTick.clocks _ T).clocks r).val &&& mask = 0#32)), (SysTick.clocks _ T).clocks r) = _
      rw [clocks_add, hd, hc]
      exact e
    · by_cases h : rounds = []
      · subst h
        have e' : (digitalWrite s (constant p n) (decide (lit half (T + r))), _) = (s', t') := e
        rw [← (Prod.mk.inj e').1, w1]
        rfl
      · rw [i4 h, List.sum_cons, Nat.add_assoc]

/-- What is common to both. -/
theorem stopped (mask : U32) (half : Nat) (s : State) (p n q m : Nat) (hp : (p, n) ∈ pins) (hq : (q, m) ∈ pins) (hne : (q, m) ≠ (p, n)) (rounds : List Nat)
    (c : FatalPins) (hc : c.fatalErrorPin = constant p n) (hx : c.eibTxPin = constant q m)
    (hm : ∀ T, ((({ load := 0xFFFFFF#32, val := 0#32, enabled := true } : SysTick).clocks T).val &&& mask = 0#32) ↔ lit half T) :
    ∃ s' t', ((setPinsInSecureModes c s).map fun s => blink c mask rounds (s, { load := 0xFFFFFF#32, val := 0#32, enabled := true })) = some (s', t') ∧
      Released s' q m ∧ Driven s' p n ∧
      (∀ x ∈ pins, x ≠ (p, n) → x ≠ (q, m) → Untouched s s' x.1 x.2) ∧
      (rounds ≠ [] → digitalRead s' (constant p n) = decide (lit half rounds.sum)) := by
  obtain ⟨s1, e1, d1, f1, -, o1⟩ := plain s p n hp true
  obtain ⟨s2, e2, d2, f2, g2, o2⟩ := plain s1 q m hq false
  obtain ⟨s', t', e, i1, i2, i3, i4⟩ := blink_spec mask half p n hp c hc hm rounds 0 s2
  have hreg : ∀ r, reg s' r = reg s2 r := fun r => congrFun i1 _
  have hsec : setPinsInSecureModes c s = some s2 := by
    unfold setPinsInSecureModes
    rw [hc, hx]
    rw [show pinMode s (constant p n) OUTPUT = some s1 from e1]
    exact e2
  have hn32 : ∀ x ∈ pins, x.2 < 32 := fun x h => by have := (t_pin x h).2.2.2.1; omega
  refine ⟨s', t', ?_, ⟨?_, ?_, ?_⟩, ⟨?_, ?_⟩, ?_, ?_⟩
  · rw [hsec]
    exact congrArg some e
  · rw [hreg]; exact f2
  · rw [i2, d2.1 q m (hn32 _ hq), if_pos ⟨rfl, rfl⟩]
  · rw [hreg]; exact g2
  · rw [hreg, o2 (p, n) hp hne.symm]; exact f1
  · rw [i2, d2.1 p n (hn32 _ hp), if_neg (fun h => hne (Prod.ext h.1.symm h.2.symm)), d1.1 p n (hn32 _ hp), if_pos ⟨rfl, rfl⟩]
  · intro x hx1 h1 h2
    refine ⟨?_, ?_, ?_⟩
    · rw [hreg, o2 x hx1 h2, o1 x hx1 h1]
    · rw [i2, d2.1 _ _ (hn32 _ hx1), if_neg (fun h => h2 (Prod.ext h.1 h.2)), d1.1 _ _ (hn32 _ hx1), if_neg (fun h => h1 (Prod.ext h.1 h.2))]
    · rw [i3 x hx1 h1, read_bit _ hx1, read_bit _ hx1, (d2.2 x.1).1, (d1.2 x.1).1]
  · intro h
    rw [i4 h, Nat.zero_add]

/-! ## The property -/

/-- **C114.** After a fatal error, from any state of the pins and of SysTick, with any pin for the LED and any other pin for the bus, and for as long as it
goes on: the bus is released, the LED is driven, all other pins are as they were, and the LED blinks with a period of 2²³ clocks (175 ms at 48 MHz). -/
theorem C114_fatal_error (s : State) (t : SysTick) (p n q m : Nat) (hp : (p, n) ∈ pins) (hq : (q, m) ∈ pins) (hne : (q, m) ≠ (p, n)) (rounds : List Nat)
    (c : FatalPins) :
    ∃ s' t', fatalError (setKNX_TX_Pin (setFatalErrorPin c (constant p n)) (constant q m)) rounds s t = some (s', t') ∧
      Released s' q m ∧ Driven s' p n ∧
      (∀ x ∈ pins, x ≠ (p, n) → x ≠ (q, m) → Untouched s s' x.1 x.2) ∧
      (rounds ≠ [] → (digitalRead s' (constant p n) = true ↔ lit (2 ^ 22) rounds.sum)) := by
  obtain ⟨s', t', e, h1, h2, h3, h4⟩ := stopped 0x400000#32 4194304 s p n q m hp hq hne rounds
    (setKNX_TX_Pin (setFatalErrorPin c (constant p n)) (constant q m)) rfl rfl lit_22
  refine ⟨s', t', ?_, h1, h2, h3, fun h => ?_⟩
  · unfold fatalError
    rw [config_val]
    exact e
  · rw [h4 h]
    exact decide_eq_true_iff

/-- **C114 (part).** The same after a hard fault, blinking twice as fast. -/
theorem C114_hard_fault (s : State) (t : SysTick) (p n q m : Nat) (hp : (p, n) ∈ pins) (hq : (q, m) ∈ pins) (hne : (q, m) ≠ (p, n)) (rounds : List Nat)
    (c : FatalPins) :
    ∃ s' t', hardFault (setKNX_TX_Pin (setFatalErrorPin c (constant p n)) (constant q m)) rounds s t = some (s', t') ∧
      Released s' q m ∧ Driven s' p n ∧
      (∀ x ∈ pins, x ≠ (p, n) → x ≠ (q, m) → Untouched s s' x.1 x.2) ∧
      (rounds ≠ [] → (digitalRead s' (constant p n) = true ↔ lit (2 ^ 21) rounds.sum)) := by
  obtain ⟨s', t', e, h1, h2, h3, h4⟩ := stopped 0x200000#32 2097152 s p n q m hp hq hne rounds
    (setKNX_TX_Pin (setFatalErrorPin c (constant p n)) (constant q m)) rfl rfl lit_21
  refine ⟨s', t', ?_, h1, h2, h3, fun h => ?_⟩
  · unfold hardFault
    rw [config_val]
    exact e
  · rw [h4 h]
    exact decide_eq_true_iff

/-- **C114 (part).** The same holds with the pins a program has that sets none. -/
theorem C114_default_pins (s : State) (t : SysTick) (rounds : List Nat) :
    ∃ s' t', fatalError fatalPins0 rounds s t = some (s', t') ∧ Released s' 1 9 ∧ Driven s' 2 0 ∧
      (∀ x ∈ pins, x ≠ (2, 0) → x ≠ (1, 9) → Untouched s s' x.1 x.2) ∧
      (rounds ≠ [] → (digitalRead s' PIO2_0 = true ↔ lit (2 ^ 22) rounds.sum)) :=
  C114_fatal_error s t 2 0 1 9 (by decide) (by decide) (by decide) rounds fatalPins0

/-- **C114 (part).** If the LED and the bus are at one pin, the bus is still released (the LED then shows nothing). -/
theorem C114_same_pin (s : State) (t : SysTick) (q m : Nat) (hq : (q, m) ∈ pins) (rounds : List Nat) (c : FatalPins) :
    ∃ s' t', fatalError (setKNX_TX_Pin (setFatalErrorPin c (constant q m)) (constant q m)) rounds s t = some (s', t') ∧ Released s' q m := by
  obtain ⟨s1, e1, -⟩ := plain s q m hq true
  obtain ⟨s2, e2, d2, f2, g2, -⟩ := plain s1 q m hq false
  obtain ⟨s', t', e, i1, i2, -⟩ := blink_spec 0x400000#32 4194304 q m hq (setKNX_TX_Pin (setFatalErrorPin c (constant q m)) (constant q m)) rfl lit_22 rounds 0 s2
  have hreg : ∀ r, reg s' r = reg s2 r := fun r => congrFun i1 _
  have hn : m < 32 := by have := (t_pin _ hq).2.2.2.1; dsimp only at this; omega
  refine ⟨s', t', ?_, ⟨?_, ?_, ?_⟩⟩
  · unfold fatalError setPinsInSecureModes
    rw [config_val]
    show Option.map _ (Option.bind (pinMode s (constant q m) OUTPUT) _) = _
    rw [show pinMode s (constant q m) OUTPUT = some s1 from e1]
    show Option.map _ (pinMode s1 (constant q m) INPUT) = _
    rw [show pinMode s1 (constant q m) INPUT = some s2 from e2]
    exact congrArg some e
  · rw [hreg]; exact f2
  · rw [i2, d2.1 q m hn, if_pos ⟨rfl, rfl⟩]
  · rw [hreg]; exact g2

/-- Some reading falls into every stretch as long as the longest gap. -/
theorem reading_in (half : Nat) (r : Nat → Nat) (hr : ∀ i, r i < r (i + 1) ∧ r (i + 1) ≤ r i + half) (i a : Nat) (ha : r i < a) :
    ∃ j, i ≤ j ∧ a ≤ r j ∧ r j < a + half := by
  have grow : ∀ k, r i + k ≤ r (i + k) := by
    intro k
    induction k with
    | zero => exact Nat.le_refl _
    | succ k ih => have := (hr (i + k)).1; rw [Nat.add_succ i k]; show _ ≤ r (i + k + 1); omega
  have first : ∀ k, a ≤ r (i + k) → ∃ j, i ≤ j ∧ a ≤ r j ∧ r j < a + half := by
    intro k
    induction k with
    | zero => intro h; rw [Nat.add_zero] at h; omega
    | succ k ih =>
      intro h
      by_cases q : a ≤ r (i + k)
      · exact ih q
      · have := (hr (i + k)).2
        exact ⟨i + k + 1, by omega, h, by omega⟩
  exact first a (by have := grow a; omega)

theorem lit_again (half : Nat) (hh : 0 < half) (r : Nat → Nat) (hr : ∀ i, r i < r (i + 1) ∧ r (i + 1) ≤ r i + half) (i : Nat) :
    (∃ j, i < j ∧ lit half (r j)) ∧ ∃ j, i < j ∧ ¬ lit half (r j) := by
  -- the beginning of the next period
  have hP : ∃ P, r (i + 1) ≤ P ∧ P % (2 * half) = 0 := by
    refine ⟨(r (i + 1) / (2 * half) + 1) * (2 * half), ?_, Nat.mul_mod_left _ _⟩
    have h1 := Nat.div_add_mod (r (i + 1)) (2 * half)
    have h2 := Nat.mod_lt (r (i + 1)) (show 0 < 2 * half by omega)
    rw [Nat.add_mul, Nat.mul_comm (r (i + 1) / (2 * half))]
    omega
  obtain ⟨P, hP1, hP2⟩ := hP
  have hmod : ∀ k, k < 2 * half → (P + k) % (2 * half) = k := by
    intro k hk
    rw [Nat.add_mod, hP2, Nat.zero_add, Nat.mod_mod, Nat.mod_eq_of_lt hk]
  constructor
  · obtain ⟨j, h1, h2, h3⟩ := reading_in half r hr (i + 1) (P + half + 1) (by omega)
    refine ⟨j, by omega, ?_⟩
    unfold lit
    obtain ⟨k, hk⟩ : ∃ k, r j = P + k := ⟨r j - P, by omega⟩
    by_cases q : k < 2 * half
    · right; rw [hk, hmod k q]; omega
    · left
      have : k = 2 * half := by omega
      rw [hk, this, Nat.add_mod_right, hP2]
  · obtain ⟨j, h1, h2, h3⟩ := reading_in half r hr (i + 1) (P + 1) (by omega)
    refine ⟨j, by omega, ?_⟩
    unfold lit
    obtain ⟨k, hk⟩ : ∃ k, r j = P + k := ⟨r j - P, by omega⟩
    rw [hk, hmod k (by omega)]
    omega

theorem sum_range_succ (d : Nat → Nat) (k : Nat) : ((List.range (k + 1)).map d).sum = ((List.range k).map d).sum + d k := by
  rw [List.range_succ, List.map_append, List.sum_append]
  simp

/-- **C114 (part).** The LED does blink, for ever: whatever the times `d` of the rounds are, as long as no round takes longer than 2²² clocks, after any
number of rounds the LED will be on again and will be off again. -/
theorem C114_blinks_for_ever (s : State) (t : SysTick) (p n q m : Nat) (hp : (p, n) ∈ pins) (hq : (q, m) ∈ pins) (hne : (q, m) ≠ (p, n)) (c : FatalPins)
    (d : Nat → Nat) (hd : ∀ i, 0 < d i ∧ d i ≤ 2 ^ 22) (i : Nat) :
    ∀ on : Bool, ∃ j s' t', i < j ∧
      fatalError (setKNX_TX_Pin (setFatalErrorPin c (constant p n)) (constant q m)) ((List.range j).map d) s t = some (s', t') ∧
      digitalRead s' (constant p n) = on := by
  intro on
  have h := lit_again (2 ^ 22) (by decide) (fun k => ((List.range k).map d).sum)
    (fun k => by have := hd k; show _ < ((List.range (k + 1)).map d).sum ∧ ((List.range (k + 1)).map d).sum ≤ _; rw [sum_range_succ]; omega) i
  have nonempty : ∀ j, i < j → (List.range j).map d ≠ [] := by
    intro j hj e
    have := congrArg List.length e
    simp at this
    omega
  cases on with
  | true =>
    obtain ⟨j, hj, hl⟩ := h.1
    obtain ⟨s', t', e, -, -, -, h4⟩ := C114_fatal_error s t p n q m hp hq hne ((List.range j).map d) c
    exact ⟨j, s', t', hj, e, (h4 (nonempty j hj)).mpr hl⟩
  | false =>
    obtain ⟨j, hj, hl⟩ := h.2
    obtain ⟨s', t', e, -, -, -, h4⟩ := C114_fatal_error s t p n q m hp hq hne ((List.range j).map d) c
    exact ⟨j, s', t', hj, e, Bool.eq_false_iff.mpr fun x => hl ((h4 (nonempty j hj)).mp x)⟩

/-! ## Non-vacuity -/

/-- All pins are outputs and the one for the bus is the match output of the timer (function 1). -/
def demoPins : State :=
  { port := fun _ => { dir := 0xFFF#32, is := 0#32, ibe := 0#32, iev := 0#32, ie := 0#32, data := 0#32 }, iocon := fun _ => 0xC1#32 }

example : ∃ j s' t', 7 < j ∧
    fatalError (setKNX_TX_Pin (setFatalErrorPin fatalPins0 (constant 2 11)) (constant 1 9)) ((List.range j).map fun _ => 12) demoPins
      { load := 47999#32, val := 17#32, enabled := true } = some (s', t') ∧ digitalRead s' (constant 2 11) = true :=
  C114_blinks_for_ever demoPins _ 2 11 1 9 (by decide) (by decide) (by decide) fatalPins0 (fun _ => 12) (fun _ => by decide) 7 true

example : ¬ Released demoPins 1 9 := fun h => by have := h.input; revert this; decide

example : ∃ s' t', fatalError fatalPins0 [1000, 5000000] demoPins { load := 47999#32, val := 17#32, enabled := true } = some (s', t') ∧
    Released s' 1 9 ∧ digitalRead s' PIO2_0 = true := by
  obtain ⟨s', t', e, h1, -, -, h4⟩ := C114_default_pins demoPins { load := 47999#32, val := 17#32, enabled := true } [1000, 5000000]
  exact ⟨s', t', e, h1, (h4 (by decide)).mpr (by decide)⟩

example : ∃ s' t', fatalError fatalPins0 [1000, 50] demoPins { load := 47999#32, val := 17#32, enabled := true } = some (s', t') ∧
    digitalRead s' PIO2_0 = false := by
  obtain ⟨s', t', e, -, -, -, h4⟩ := C114_default_pins demoPins { load := 47999#32, val := 17#32, enabled := true } [1000, 50]
  exact ⟨s', t', e, Bool.eq_false_iff.mpr (fun q => absurd ((h4 (by decide)).mp q) (by decide))⟩

end Verif.Pin
