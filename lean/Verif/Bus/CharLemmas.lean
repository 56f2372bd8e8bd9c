import Verif.Bus.Spec
import Verif.Bus.Lemmas

/-!
# Lemmas about characters
-/

namespace Verif.Bus

open Verif.Knx

/-! ## Receiver -/

/-- One more bit. -/
def push (q : Scan) (bit : Bool) : Scan :=
  { bitTime := q.bitTime + 104, mask := q.mask <<< 1
    cur := if bit then q.cur ||| q.mask else q.cur, parity := if bit then !q.parity else q.parity }

/-- The scan state inside the loop: the bit time is one ahead. -/
def ahead (q : Scan) : Scan := { q with bitTime := q.bitTime + 104 }

/-- `j` one bits. -/
def pushOnes (q : Scan) : Nat → Scan
  | 0 => q
  | j + 1 => pushOnes (push q true) j

theorem pushOnes_bitTime (q : Scan) (j : Nat) : (pushOnes q j).bitTime = q.bitTime + 104 * j := by
  induction j generalizing q with
  | zero => simp [pushOnes]
  | succ j ih => simp only [pushOnes, ih, push]; omega

theorem pushOnes_mask (q : Scan) (j : Nat) : (pushOnes q j).mask = q.mask * 2 ^ j := by
  induction j generalizing q with
  | zero => simp [pushOnes]
  | succ j ih =>
    simp only [pushOnes, ih, push, Nat.shiftLeft_eq, Nat.pow_succ]
    rw [Nat.mul_assoc, Nat.mul_comm 2]

theorem scanHigh_ones (j fuel : Nat) (time : Int) (q : Scan) (hf : j ≤ fuel)
    (hmask : ∀ k, k < j → q.mask * 2 ^ k ≤ 0x100)
    (hlo : ∀ k, k < j → q.bitTime + 104 * (k + 1) + 69 ≤ time)
    (hstop : time < q.bitTime + 104 * (j + 1) + 69 ∨ 0x100 < q.mask * 2 ^ j) :
    scanHigh fuel time (ahead q) = ahead (pushOnes q j) := by
  induction j generalizing fuel q with
  | zero =>
    cases fuel with
    | zero => rfl
    | succ fuel =>
      simp only [scanHigh, pushOnes]
      rw [if_neg]
      simp only [ahead, bitWaitUs]
      rintro ⟨h1, h2⟩
      rcases hstop with h | h
      · omega
      · simp at h; omega
  | succ j ih =>
    obtain ⟨fuel, rfl⟩ : ∃ f, fuel = f + 1 := ⟨fuel - 1, by omega⟩
    simp only [scanHigh]
    rw [if_pos]
    · have := ih fuel (push q true) (by omega) (fun k hk => ?_) (fun k hk => ?_) ?_
      · rw [pushOnes, ← this]; rfl
      · have := hmask (k + 1) (by omega)
        simp only [push, Nat.shiftLeft_eq, Nat.pow_one]
        rw [Nat.pow_succ, Nat.mul_comm _ 2, ← Nat.mul_assoc] at this
        exact this
      · have := hlo (k + 1) (by omega)
        simp only [push]
        omega
      · rcases hstop with h | h
        · left; simp only [push]; omega
        · right
          simp only [push, Nat.shiftLeft_eq, Nat.pow_one]
          rw [Nat.pow_succ, Nat.mul_comm _ 2, ← Nat.mul_assoc] at h
          exact h
    · have h1 := hlo 0 (by omega)
      have h2 := hmask 0 (by omega)
      simp only [ahead, bitWaitUs]
      simp at h2
      exact ⟨by omega, h2⟩

/-- The loop of bus.cpp:753-759 has ended when the model's `scanHigh` stops. -/
theorem scanHigh_stop (fuel : Nat) (time : Int) (s : Scan)
    (hf : (time - s.bitTime).toNat / bitTimeUs + 1 ≤ fuel) :
    ¬ ((scanHigh fuel time s).bitTime + bitWaitUs ≤ time ∧ (scanHigh fuel time s).mask ≤ 0x100) := by
  simp only [bitTimeUs] at hf
  induction fuel generalizing s with
  | zero => omega
  | succ fuel ih =>
    simp only [scanHigh, bitTimeUs, bitWaitUs]
    split
    · next h =>
      by_cases hz : fuel = 0
      · subst hz
        simp only [scanHigh]
        omega
      · apply ih
        simp only
        omega
    · next h => exact h

theorem scanEdge_zero (j : Nat) (time : Int) (q : Scan)
    (hmask : ∀ k, k < j → q.mask * 2 ^ k ≤ 0x100)
    (hlo : q.bitTime + 104 * (j + 1) - 35 ≤ time)
    (hhi : time < q.bitTime + 104 * (j + 1) + 69) :
    scanEdge time q = push (pushOnes q j) false := by
  unfold scanEdge
  rw [if_pos (by simp only [bitTimeUs]; omega)]
  have := scanHigh_ones j (scanFuel time (ahead q).bitTime) time q ?_ hmask
    (fun k hk => by omega) (Or.inl hhi)
  · simp only
    rw [show ({ q with bitTime := q.bitTime + (bitTimeUs : Nat) } : Scan) = ahead q from rfl,
      show q.bitTime + (bitTimeUs : Nat) = (ahead q).bitTime from rfl, this]
    rfl
  · simp only [scanFuel, ahead, bitTimeUs]
    omega

theorem scanEdge_end (j : Nat) (q : Scan) (m : Nat) (hm : m + j = 9)
    (hb : q.bitTime = 104 * m) (hq : q.mask = 2 ^ m) :
    scanEdge 1144 q = push (pushOnes q j) false := by
  unfold scanEdge
  rw [if_pos (by simp only [bitTimeUs]; omega)]
  have hmask : ∀ k, k < j → q.mask * 2 ^ k ≤ 0x100 := by
    intro k hk
    rw [hq, ← Nat.pow_add]
    exact Nat.pow_le_pow_right (by omega : 2 > 0) (show m + k ≤ 8 by omega)
  have := scanHigh_ones j (scanFuel 1144 (ahead q).bitTime) 1144 q ?_ hmask
    (fun k hk => by omega) (Or.inr ?_)
  · simp only
    rw [show ({ q with bitTime := q.bitTime + (bitTimeUs : Nat) } : Scan) = ahead q from rfl,
      show q.bitTime + (bitTimeUs : Nat) = (ahead q).bitTime from rfl, this]
    rfl
  · simp only [scanFuel, ahead, bitTimeUs]
    omega
  · rw [hq, ← Nat.pow_add, hm]
    decide

/-- The scan state at the start bit. -/
def scan0 : Scan := ⟨0, 1, 0, true⟩

/-- The scan state after some bits. -/
def scanBits (l : List Bool) : Scan := l.foldl push scan0

theorem foldl_push_bitTime (l : List Bool) (q : Scan) :
    (l.foldl push q).bitTime = q.bitTime + 104 * l.length := by
  induction l generalizing q with
  | nil => simp
  | cons x l ih => simp only [List.foldl_cons, ih, push, List.length_cons]; omega

theorem foldl_push_mask (l : List Bool) (q : Scan) :
    (l.foldl push q).mask = q.mask * 2 ^ l.length := by
  induction l generalizing q with
  | nil => simp
  | cons x l ih =>
    simp only [List.foldl_cons, ih, push, List.length_cons, Nat.shiftLeft_eq, Nat.pow_one]
    rw [Nat.pow_succ, Nat.mul_assoc, Nat.mul_comm 2]

theorem pushOnes_eq (q : Scan) (j : Nat) :
    pushOnes q j = (List.replicate j true).foldl push q := by
  induction j generalizing q with
  | zero => rfl
  | succ j ih => simp [pushOnes, ih, List.replicate_succ]

/-- Zero positions of a list of bits that starts at position `n`. -/
def zerosFrom : Nat → List Bool → List Nat
  | _, [] => []
  | n, true :: l => zerosFrom (n + 1) l
  | n, false :: l => n :: zerosFrom (n + 1) l

theorem zeroSlots_eq (b : Byte) (p : Bool) : zeroSlots b p = zerosFrom 1 (charBits b p) := by
  have gen : ∀ (l : List Bool) (k : Nat),
      (((l.zipIdx k).filter fun x => !x.1).map fun x => x.2 + 1) = zerosFrom (k + 1) l := by
    intro l
    induction l with
    | nil => intro k; rfl
    | cons x l ih =>
      intro k
      cases x
      · simp [zerosFrom, ih]
      · simp [zerosFrom, ih]
  exact gen _ 0

theorem zerosFrom_ones (n j : Nat) (l : List Bool) :
    zerosFrom n (List.replicate j true ++ l) = zerosFrom (n + j) l := by
  induction j generalizing n with
  | zero => rfl
  | succ j ih =>
    simp only [List.replicate_succ, List.cons_append, zerosFrom, ih]
    congr 1
    omega

/-- Processing the captured edges. -/
theorem scan_edges (es : List Irq) (n : Nat) (l : List Bool) (q : Scan)
    (hq : q.bitTime = 104 * n) (hm : q.mask = 2 ^ n) (hn : n + l.length = 9)
    (hc : Captured (zerosFrom (n + 1) l) es) :
    ∃ j l', es.foldl (fun s (e : Irq) => scanEdge e.capVal s) q = l'.foldl push q ∧
      l = l' ++ List.replicate j true := by
  obtain ⟨m, hlen⟩ : ∃ m, l.length = m := ⟨_, rfl⟩
  induction m using Nat.strongRecOn generalizing es n l q with
  | _ m ih =>
  -- split off the leading ones
  obtain ⟨j, r, hl, hr⟩ : ∃ j r, l = List.replicate j true ++ r ∧ (r = [] ∨ ∃ r', r = false :: r') := by
    clear hc hn hlen
    induction l with
    | nil => exact ⟨0, [], rfl, Or.inl rfl⟩
    | cons x l ih2 =>
      cases x
      · exact ⟨0, false :: l, rfl, Or.inr ⟨l, rfl⟩⟩
      · obtain ⟨j, r, h1, h2⟩ := ih2
        exact ⟨j + 1, r, by rw [h1]; rfl, h2⟩
  rcases hr with rfl | ⟨r', rfl⟩
  · rw [hl, zerosFrom_ones] at hc
    simp only [zerosFrom, Captured] at hc
    subst hc
    exact ⟨j, [], rfl, by simpa using hl⟩
  · rw [hl, zerosFrom_ones] at hc
    simp only [zerosFrom] at hc
    cases es with
    | nil => exact hc.elim
    | cons e es =>
      obtain ⟨⟨_, _, _, h1, h2⟩, hc⟩ := hc
      have hlen2 : l.length = j + (r'.length + 1) := by rw [hl]; simp
      have hE : scanEdge e.capVal q = push (pushOnes q j) false := by
        apply scanEdge_zero
        · intro k hk
          rw [hm, ← Nat.pow_add]
          exact Nat.pow_le_pow_right (by omega : 2 > 0) (show n + k ≤ 8 by omega)
        · omega
        · omega
      have hq' : (push (pushOnes q j) false).bitTime = 104 * ((n + j + 1 : Nat) : Int) := by
        simp only [push, pushOnes_bitTime, hq]; omega
      have hm' : (push (pushOnes q j) false).mask = 2 ^ (n + j + 1) := by
        simp only [push, pushOnes_mask, hm, Nat.shiftLeft_eq]
        rw [← Nat.pow_add, ← Nat.pow_add]
      obtain ⟨j', l', h3, h4⟩ := ih r'.length (by omega) es (n + j + 1) r' _ hq' hm' (by omega)
        (by rw [show n + j + 1 + 1 = n + 1 + j + 1 by omega]; exact hc) rfl
      refine ⟨j', List.replicate j true ++ false :: l', ?_, ?_⟩
      · rw [List.foldl_cons, hE, h3, List.foldl_append, List.foldl_cons, ← pushOnes_eq]
      · rw [hl, h4]; simp

/-- The whole character. -/
theorem scan_char (es : List Irq) (l : List Bool) (hl : l.length = 9)
    (hc : Captured (zerosFrom 1 l) es) :
    scanEdge 1144 (es.foldl (fun s (e : Irq) => scanEdge e.capVal s) scan0) =
      push (scanBits l) false := by
  obtain ⟨j, l', h1, h2⟩ := scan_edges es 0 l scan0 rfl rfl (by omega) hc
  rw [h1]
  have hlen : l'.length + j = 9 := by rw [← hl, h2]; simp
  rw [scanEdge_end j _ l'.length hlen (by rw [foldl_push_bitTime]; simp [scan0])
    (by rw [foldl_push_mask]; simp [scan0])]
  rw [pushOnes_eq, scanBits, h2, List.foldl_append]

theorem scanBits_char (b : Byte) (p : Bool) :
    BitVec.ofNat 8 ((push (scanBits (charBits b p)) false).cur &&& 0xff) = b ∧
    (push (scanBits (charBits b p)) false).parity = (p == parityBit b) := by
  have h : ∀ b : Byte, ∀ p : Bool,
    BitVec.ofNat 8 ((push (scanBits (charBits b p)) false).cur &&& 0xff) = b ∧
    (push (scanBits (charBits b p)) false).parity = (p == parityBit b) := by decide +kernel
  exact h b p

/-! ## Sender -/

/-- The zero bits of the rest of a character, as the sender finds them: the times of the falling
edges and the end of the stop bit, counted from the timer reset at `t`. -/
def pulses : Nat → Nat → Nat → Nat → Option (List Nat × Nat)
  | 0, _, _, _ => none
  | fuel + 1, cur, mask, t =>
    let z := nextZero 10 cur mask bitTimeUs
    if 0x200 < z.1 <<< 1 then some ([], t + z.2)
    else (pulses fuel cur (z.1 <<< 1) (t + z.2)).map fun r => ((t + (z.2 - 35)) :: r.1, r.2)

theorem nextZero_time (fuel cur mask k : Nat) :
    ∃ j, j ≤ fuel ∧ (nextZero fuel cur mask (104 * k)).2 = 104 * (k + j) := by
  induction fuel generalizing mask k with
  | zero => exact ⟨0, Nat.le_refl _, rfl⟩
  | succ fuel ih =>
    simp only [nextZero, bitTimeUs]
    split
    · obtain ⟨j, h1, h2⟩ := ih (mask <<< 1) (k + 1)
      exact ⟨j + 1, by omega, by
        rw [show 104 * k + 104 = 104 * (k + 1) by omega, h2]; congr 1; omega⟩
    · exact ⟨0, by omega, rfl⟩

theorem nextZero_bounds (cur mask : Nat) :
    ∃ k, 1 ≤ k ∧ k ≤ 11 ∧ (nextZero 10 cur mask bitTimeUs).2 = 104 * k := by
  obtain ⟨j, h1, h2⟩ := nextZero_time 10 cur mask 1
  exact ⟨1 + j, by omega, by omega, h2⟩

theorem pulses_shift (n cur mask t : Nat) :
    pulses n cur mask t = (pulses n cur mask 0).map fun r => (r.1.map (t + ·), t + r.2) := by
  induction n generalizing mask t with
  | zero => rfl
  | succ n ih =>
    simp only [pulses]
    split
    · simp
    · rw [ih _ (t + _), ih _ (0 + _)]
      cases pulses n cur ((nextZero 10 cur mask bitTimeUs).1 <<< 1) 0 with
      | none => rfl
      | some r =>
        simp [Nat.add_assoc]

/-- The pulses of a whole character. -/
theorem pulses_char (c : Byte) :
    pulses 11 (withParity c.toNat) 1 0 =
      some ((zeroSlots c (parityBit c)).map fun n => 104 * n - 35, 1040) ∧
    (withParity c.toNat).testBit 8 = parityBit c := by
  have h : ∀ c : Byte, pulses 11 (withParity c.toNat) 1 0 =
      some ((zeroSlots c (parityBit c)).map fun n => 104 * n - 35, 1040) ∧
    (withParity c.toNat).testBit 8 = parityBit c := by decide +kernel
  exact h c

theorem zeroSlots_pos (b : Byte) (p : Bool) : ∀ n ∈ zeroSlots b p, 1 ≤ n := by
  intro n hn
  simp only [zeroSlots, List.mem_map] at hn
  obtain ⟨x, _, rfl⟩ := hn
  omega

/-- Even number of ones among the nine bits. -/
theorem parity_even (b : Byte) (p : Bool) :
    (p == parityBit b) = ((charBits b p).countP id % 2 == 0) := by
  have h : ∀ b : Byte, ∀ p : Bool, (p == parityBit b) = ((charBits b p).countP id % 2 == 0) := by
    decide +kernel
  exact h b p

theorem countP_flip (l : List Bool) (k : Nat) (hk : k < l.length) :
    (l.set k (!l[k])).countP id % 2 ≠ l.countP id % 2 := by
  induction l generalizing k with
  | nil => simp at hk
  | cons x l ih =>
    cases k with
    | zero => cases x <;> simp <;> omega
    | succ k =>
      have := ih k (by simpa using hk)
      cases x <;> simp at this ⊢ <;> omega

end Verif.Bus
