import Verif.Timer.Model

/-!
# C72: how long `delay` and `delayMicroseconds` wait

`Reads r G`: the times of the readings increase, and two readings are at most `G` clocks apart.
-/

namespace Verif.Timer

open Verif

/-- The readings are at increasing times, at most `G` apart. -/
def Reads (r : Nat → Nat) (G : Nat) : Prop := ∀ i, r i < r (i + 1) ∧ r (i + 1) ≤ r i + G

/-! ## Lemmas -/

theorem sysTick_toNat {load : Nat} (h : load < 65536) (t : Nat) : (sysTick load t).toNat = load - t % (load + 1) := by
  unfold sysTick
  rw [BitVec.toNat_ofNat]
  exact Nat.mod_eq_of_lt (by omega)

theorem div_step (P t t' : Nat) (hP : 0 < P) (ht : t ≤ t') : ∃ k, t' / P = t / P + k ∧ t' + t % P = t + t' % P + P * k := by
  have h1 := Nat.div_add_mod t P
  have h2 := Nat.div_add_mod t' P
  obtain ⟨k, hk⟩ := Nat.exists_eq_add_of_le (Nat.div_le_div_right (c := P) ht)
  refine ⟨k, hk, ?_⟩
  rw [hk, Nat.mul_add] at h2
  omega

theorem elapsed_le {load : Nat} (h : load < 65536) {t t' : Nat} (ht : t < t') :
    0 ≤ elapsedTicks load (sysTick load t) (sysTick load t') ∧
    elapsedTicks load (sysTick load t) (sysTick load t') ≤ (t' : Int) - t := by
  unfold elapsedTicks
  dsimp only
  rw [sysTick_toNat h, sysTick_toNat h]
  obtain ⟨k, h1, h2⟩ := div_step (load + 1) t t' (by omega) (Nat.le_of_lt ht)
  have m1 := Nat.mod_lt t (show load + 1 > 0 by omega)
  have m2 := Nat.mod_lt t' (show load + 1 > 0 by omega)
  rcases Nat.eq_zero_or_pos k with rfl | hk
  · split <;> omega
  · have := Nat.mul_le_mul_left (load + 1) hk
    split <;> omega

theorem elapsed_exact {load : Nat} (h : load < 65536) {t t' : Nat} (ht : t < t') (hg : t' ≤ t + load) :
    elapsedTicks load (sysTick load t) (sysTick load t') + ((t' / (load + 1) : Nat) : Int) - (t / (load + 1) : Nat) = (t' : Int) - t ∧
    t' / (load + 1) ≤ t / (load + 1) + 1 ∧ (t % (load + 1) = 0 → t' / (load + 1) = t / (load + 1)) ∧
    (t' / (load + 1) ≠ t / (load + 1) → t' = t + 1 → t' % (load + 1) = 0) := by
  unfold elapsedTicks
  dsimp only
  rw [sysTick_toNat h, sysTick_toNat h]
  obtain ⟨k, h1, h2⟩ := div_step (load + 1) t t' (by omega) (Nat.le_of_lt ht)
  have m1 := Nat.mod_lt t (show load + 1 > 0 by omega)
  have m2 := Nat.mod_lt t' (show load + 1 > 0 by omega)
  rcases (show k = 0 ∨ k = 1 ∨ 2 ≤ k by omega) with rfl | rfl | hk
  · refine ⟨?_, by omega, by omega, by omega⟩
    split <;> omega
  · rw [Nat.mul_one] at h2
    refine ⟨?_, by omega, by omega, by omega⟩
    split <;> omega
  · have := Nat.mul_le_mul_left (load + 1) hk
    omega

theorem wait_lower {load : Nat} (h : load < 65536) {r : Nat → Nat} (hr : ∀ i, r i < r (i + 1)) {j : Nat} :
    ∀ n i w, waitTicks load r n (i + 1) (sysTick load (r i)) w = some j → i + 1 ≤ j ∧ w ≤ (r (j - 1) : Int) - r i := by
  intro n
  induction n with
  | zero => intro i w hw; cases hw
  | succ n ih =>
    intro i w hw
    rw [waitTicks] at hw
    by_cases hp : w > 0
    · rw [if_pos hp] at hw
      obtain ⟨q1, q2⟩ := ih _ _ hw
      have := elapsed_le h (hr i)
      omega
    · rw [if_neg hp] at hw
      cases hw
      exact ⟨Nat.le_refl _, by simp only [Nat.add_sub_cancel]; omega⟩

theorem wait_ends {load : Nat} (h : load < 65536) (h1 : 1 ≤ load) {r : Nat → Nat} {G : Nat} (hr : Reads r G) (hG : G ≤ load) :
    ∀ (k i : Nat) (w : Int), 2 * w + (if r i % (load + 1) = 0 then 0 else 1) ≤ (k : Int) →
      ∃ j, i + 1 ≤ j ∧ (∀ n, k + 1 ≤ n → waitTicks load r n (i + 1) (sysTick load (r i)) w = some j) ∧
        (0 < w → (r (j - 1) : Int) - r i ≤ w - 1 + G + ((r (j - 1) / (load + 1) : Nat) : Int) - (r i / (load + 1) : Nat)) := by
  intro k
  induction k with
  | zero =>
    intro i w hw
    refine ⟨i + 1, Nat.le_refl _, fun n hn => ?_, fun hp => ?_⟩
    · obtain ⟨n, rfl⟩ : ∃ n', n = n' + 1 := ⟨n - 1, by omega⟩
      rw [waitTicks, if_neg]
      split at hw <;> omega
    · split at hw <;> omega
  | succ k ih =>
    intro i w hw
    by_cases hp : 0 < w
    · obtain ⟨g1, g2⟩ := hr i
      obtain ⟨e1, e2, e3, e4⟩ := elapsed_exact h g1 (by omega)
      have e5 := elapsed_le h g1
      generalize he : elapsedTicks load (sysTick load (r i)) (sysTick load (r (i + 1))) = el at *
      have hm : 2 * (w - el) + (if r (i + 1) % (load + 1) = 0 then 0 else 1) ≤ (k : Int) := by
        by_cases hz : el = 0
        · have hd : r (i + 1) / (load + 1) ≠ r i / (load + 1) := by omega
          have hne : ¬ r i % (load + 1) = 0 := fun q => hd (e3 q)
          rw [if_neg hne] at hw
          rw [if_pos (e4 hd (by omega))]
          omega
        · split <;> split at hw <;> omega
      obtain ⟨j, q1, q2, q3⟩ := ih (i + 1) (w - el) hm
      refine ⟨j, by omega, fun n hn => ?_, fun _ => ?_⟩
      · obtain ⟨n, rfl⟩ : ∃ n', n = n' + 1 := ⟨n - 1, by omega⟩
        rw [waitTicks, if_pos hp]
        dsimp only
        rw [he]
        exact q2 n (by omega)
      · by_cases hq : 0 < w - el
        · have := q3 hq
          omega
        · have hj : j = i + 2 := by
            have := q2 (k + 1) (Nat.le_refl _)
            rw [waitTicks, if_neg (by omega)] at this
            cases this; rfl
          subst hj
          show (r (i + 1) : Int) - r i ≤ w - 1 + G + ((r (i + 1) / (load + 1) : Nat) : Int) - (r i / (load + 1) : Nat)
          omega
    · refine ⟨i + 1, Nat.le_refl _, fun n hn => ?_, fun q => absurd q hp⟩
      obtain ⟨n, rfl⟩ : ∃ n', n = n' + 1 := ⟨n - 1, by omega⟩
      rw [waitTicks, if_neg hp]

/-- `usec` in clocks, less the two microseconds the call itself takes. -/
theorem ticksToWait_eq (clk usec : U32) (hc : clk.toNat < 500000000) (hu : usec.toNat ≤ 4000) :
    ticksToWait clk usec = some (if 2 < usec.toNat then (((usec.toNat - 2) * (clk.toNat / 1000000) : Nat) : Int) else 1) := by
  unfold ticksToWait
  have hd : clk.toNat / 1000000 < 500 := by omega
  by_cases h2 : 2 < usec.toNat
  · rw [if_pos (by rw [gt_iff_lt, BitVec.lt_def]; exact h2), if_neg (by rw [gt_iff_lt, BitVec.lt_def]; show ¬ 4000 < _; omega), if_pos h2]
    have hm : (usec.toNat - 2) * (clk.toNat / 1000000) ≤ 3998 * 500 := Nat.mul_le_mul (by omega) (by omega)
    have e : ((usec - 2#32) * (clk / 1000000#32)).toNat = (usec.toNat - 2) * (clk.toNat / 1000000) := by
      rw [BitVec.toNat_mul, BitVec.toNat_udiv, BitVec.toNat_sub_of_le (by rw [BitVec.le_def]; show 2 ≤ _; omega)]
      exact Nat.mod_eq_of_lt (by show (usec.toNat - 2) * (clk.toNat / 1000000) < _; omega)
    congr 1
    rw [BitVec.toInt_eq_toNat_of_lt (by rw [e]; omega), e]
  · rw [if_neg (by rw [gt_iff_lt, BitVec.lt_def]; exact h2), if_neg h2]

/-- A call of `delayMicroseconds` returns after the `j`-th reading. -/
def MicrosReturns (load : Nat) (clk : U32) (r : Nat → Nat) (i : Nat) (usec : U32) (o : Stop) : Prop :=
  ∃ N, ∀ n, N ≤ n → delayMicros load clk r n i usec = some o

/-- **C72 (part).** `delayMicroseconds` never returns early, however it is interrupted: at least `usec − 2` microseconds (it reckons two for
the call) lie between its first and its last reading of the timer. More than 4000 microseconds: `fatalError`. -/
theorem C72_micros_at_least (load : Nat) (h : load < 65536) (clk : U32) (hc : clk.toNat < 500000000) (r : Nat → Nat) (hr : ∀ i, r i < r (i + 1))
    (i : Nat) (usec : U32) :
    (4000 < usec.toNat → ∀ n, delayMicros load clk r n i usec = some .fatal) ∧
    (usec.toNat ≤ 4000 → ∀ n o, delayMicros load clk r n i usec = some o → ∃ j, o = .returned j ∧ i < j ∧
      r i + (usec.toNat - 2) * (clk.toNat / 1000000) ≤ r (j - 1)) := by
  constructor
  · intro hu n
    unfold delayMicros ticksToWait
    rw [if_pos (by rw [gt_iff_lt, BitVec.lt_def]; show 2 < _; omega), if_pos (by rw [gt_iff_lt, BitVec.lt_def]; exact hu)]
  · intro hu n o ho
    unfold delayMicros at ho
    rw [ticksToWait_eq clk usec hc hu] at ho
    dsimp only at ho
    cases hw : waitTicks load r n (i + 1) (sysTick load (r i)) (if 2 < usec.toNat then (((usec.toNat - 2) * (clk.toNat / 1000000) : Nat) : Int) else 1) with
    | none => rw [hw] at ho; cases ho
    | some j =>
      rw [hw] at ho
      cases ho
      obtain ⟨q1, q2⟩ := wait_lower h hr _ _ _ hw
      refine ⟨j, rfl, q1, ?_⟩
      by_cases h2 : 2 < usec.toNat
      · rw [if_pos h2] at q2; omega
      · rw [show usec.toNat - 2 = 0 by omega, Nat.zero_mul]
        rw [if_neg h2] at q2; omega

/-- **C72 (part).** It returns, and not later than one gap `G` between two readings, and one clock for each restart of SysTick, after the time
wanted — as long as no gap is as long as a millisecond. -/
theorem C72_micros_at_most (load : Nat) (h : load < 65536) (h1 : 1 ≤ load) (clk : U32) (hc1 : 1000000 ≤ clk.toNat) (hc : clk.toNat < 500000000)
    (r : Nat → Nat) (G : Nat) (hr : Reads r G) (hG : G ≤ load) (i : Nat) (usec : U32) (hu : usec.toNat ≤ 4000) :
    ∃ j, i < j ∧ MicrosReturns load clk r i usec (.returned j) ∧
      r (j - 1) ≤ r i + max 1 ((usec.toNat - 2) * (clk.toNat / 1000000)) + G + (r (j - 1) / (load + 1) - r i / (load + 1)) - 1 := by
  obtain ⟨w, hw⟩ : ∃ w : Nat, w = max 1 ((usec.toNat - 2) * (clk.toNat / 1000000)) := ⟨_, rfl⟩
  have hw' : (if 2 < usec.toNat then (((usec.toNat - 2) * (clk.toNat / 1000000) : Nat) : Int) else 1) = (w : Int) := by
    by_cases h2 : 2 < usec.toNat
    · have : 1 * 1 ≤ (usec.toNat - 2) * (clk.toNat / 1000000) := Nat.mul_le_mul (by omega) (by omega)
      rw [if_pos h2, hw]; omega
    · rw [if_neg h2, hw, show usec.toNat - 2 = 0 by omega, Nat.zero_mul]; rfl
  obtain ⟨j, q1, q2, q3⟩ := wait_ends h h1 hr hG (2 * w + 1) i (w : Int) (by split <;> omega)
  refine ⟨j, q1, ⟨2 * w + 2, fun n hn => ?_⟩, ?_⟩
  · unfold delayMicros
    rw [ticksToWait_eq clk usec hc hu, hw']
    dsimp only
    rw [q2 n hn]; rfl
  · have hge : 1 ≤ w := by omega
    have hmono : ∀ a b, a ≤ b → r a ≤ r b := by
      intro a b hab
      induction b with
      | zero => rw [show a = 0 by omega]; exact Nat.le_refl _
      | succ b ihb =>
        rcases Nat.lt_or_ge a (b + 1) with q | q
        · have := ihb (by omega); have := (hr b).1; omega
        · rw [show a = b + 1 by omega]; exact Nat.le_refl _
    have hd := Nat.div_le_div_right (c := load + 1) (hmono i (j - 1) (by omega))
    have := q3 (by omega)
    rw [← hw]
    omega

/-- **C72 (part).** With a clock of 48 MHz and SysTick set to one millisecond, the delay is too long by at most one gap and five clocks. -/
theorem C72_micros_48MHz (r : Nat → Nat) (G : Nat) (hr : Reads r G) (hG : G ≤ 40000) (i : Nat) (usec : U32) (hu : 2 < usec.toNat) (hu2 : usec.toNat ≤ 4000) :
    ∃ j, MicrosReturns 47999 48000000#32 r i usec (.returned j) ∧
      r i + 48 * (usec.toNat - 2) ≤ r (j - 1) ∧ r (j - 1) ≤ r i + 48 * (usec.toNat - 2) + G + 5 := by
  obtain ⟨j, q1, ⟨N, q2⟩, q3⟩ := C72_micros_at_most 47999 (by decide) (by decide) 48000000#32 (by decide) (by decide) r G hr (by omega) i usec hu2
  obtain ⟨j', a1, a2, a3⟩ := (C72_micros_at_least 47999 (by decide) 48000000#32 (by decide) r (fun i => (hr i).1) i usec).2 hu2 _ _ (q2 N (Nat.le_refl _))
  cases a1
  refine ⟨j, ⟨N, q2⟩, ?_, ?_⟩
  · have : (48000000#32).toNat / 1000000 = 48 := by decide
    rw [this] at a3; omega
  · have : (48000000#32).toNat / 1000000 = 48 := by decide
    rw [this] at q3; omega

/-! ## delay -/

theorem mono_of_le {s : Nat → Nat} (hs : ∀ i, s i ≤ s (i + 1)) {a b : Nat} (h : a ≤ b) : s a ≤ s b := by
  induction b with
  | zero => rw [show a = 0 by omega]; exact Nat.le_refl _
  | succ b ih =>
    rcases Nat.lt_or_ge a (b + 1) with q | q
    · exact Nat.le_trans (ih (by omega)) (hs b)
    · rw [show a = b + 1 by omega]; exact Nat.le_refl _

theorem delay_lower {s : Nat → Nat} (hs : ∀ i, s i ≤ s (i + 1)) {j : Nat} :
    ∀ n i l (msec : U32), l < i → delayLoop s n i (BitVec.ofNat 32 (s l)) msec = some j → i ≤ j ∧ s l + msec.toNat ≤ s (j - 1) := by
  intro n
  induction n with
  | zero => intro i l m _ h; cases h
  | succ n ih =>
    intro i l m hl h
    rw [delayLoop] at h
    by_cases h0 : m = 0#32
    · rw [if_pos h0] at h
      cases h
      subst h0
      exact ⟨Nat.le_refl _, mono_of_le hs (by omega)⟩
    · rw [if_neg h0] at h
      by_cases he : BitVec.ofNat 32 (s l) = BitVec.ofNat 32 (s i)
      · rw [if_pos he] at h
        obtain ⟨q1, q2⟩ := ih (i + 1) l m (by omega) h
        exact ⟨by omega, q2⟩
      · rw [if_neg he] at h
        obtain ⟨q1, q2⟩ := ih (i + 2) (i + 1) _ (by omega) h
        refine ⟨by omega, ?_⟩
        have hne : s l ≠ s i := fun q => he (by rw [q])
        have h1 := mono_of_le hs (show l ≤ i by omega)
        have h2 := hs i
        have h3 : m.toNat ≠ 0 := fun q => h0 (BitVec.eq_of_toNat_eq q)
        have h4 : (m - 1#32).toNat = m.toNat - 1 := by
          rw [BitVec.toNat_sub_of_le (by rw [BitVec.le_def]; show 1 ≤ _; omega)]; rfl
        omega

theorem delay_ends {s : Nat → Nat} (hs : ∀ i, s i ≤ s (i + 1)) (h1 : ∀ i, s (i + 1) ≤ s i + 1) (hu : ∀ b, ∃ i, b < s i) :
    ∀ m i l (msec : U32), msec.toNat = m → l < i → s l = s (i - 1) →
      ∃ j N, (∀ n, N ≤ n → delayLoop s n i (BitVec.ofNat 32 (s l)) msec = some j) ∧ s (j - 1) ≤ s l + 2 * m ∧
        ((∀ i, s (i + 2) ≤ s i + 1) → s (j - 1) = s l + m) := by
  intro m
  induction m with
  | zero =>
    intro i l msec hm hl hsl
    refine ⟨i, 1, fun n hn => ?_, by omega, fun _ => by omega⟩
    obtain ⟨n, rfl⟩ : ∃ n', n = n' + 1 := ⟨n - 1, by omega⟩
    rw [delayLoop, if_pos (BitVec.eq_of_toNat_eq hm)]
  | succ m ih =>
    intro i l msec hm hl hsl
    have hz : ¬ msec = 0#32 := fun q => by rw [q] at hm; simp at hm
    have h4 : (msec - 1#32).toNat = m := by
      rw [BitVec.toNat_sub_of_le (by rw [BitVec.le_def]; show 1 ≤ _; omega)]
      show msec.toNat - 1 = m
      omega
    obtain ⟨b, hb⟩ := hu (s l)
    have : ∃ d, s l < s (i + d) := ⟨b, Nat.lt_of_lt_of_le hb (mono_of_le hs (by omega))⟩
    obtain ⟨d, hd⟩ := this
    clear hb
    induction d generalizing i with
    | zero =>
      have hi : s i = s l + 1 := by
        have := h1 (i - 1)
        rw [show i - 1 + 1 = i by omega] at this
        have : s l < s i := hd
        omega
      have hne : ¬ BitVec.ofNat 32 (s l) = BitVec.ofNat 32 (s i) := by
        intro q
        have := congrArg BitVec.toNat q
        rw [BitVec.toNat_ofNat, BitVec.toNat_ofNat, hi] at this
        omega
      obtain ⟨j, N, q1, q2, q3⟩ := ih (i + 2) (i + 1) (msec - 1#32) h4 (by omega) rfl
      refine ⟨j, N + 1, fun n hn => ?_, ?_, fun hx => ?_⟩
      · obtain ⟨n, rfl⟩ : ∃ n', n = n' + 1 := ⟨n - 1, by omega⟩
        rw [delayLoop, if_neg hz, if_neg hne]
        exact q1 n (by omega)
      · have := h1 i
        omega
      · have e1 := q3 hx
        have e2 := hx (i - 1)
        rw [show i - 1 + 2 = i + 1 by omega] at e2
        have e3 := hs i
        omega
    | succ d ihd =>
      by_cases hi : s i = s l
      · obtain ⟨j, N, q1, q2, q3⟩ := ihd (i + 1) (by omega) (by simpa using hi.symm) (by rw [show i + 1 + d = i + (d + 1) by omega]; exact hd)
        refine ⟨j, N + 1, fun n hn => ?_, q2, q3⟩
        obtain ⟨n, rfl⟩ : ∃ n', n = n' + 1 := ⟨n - 1, by omega⟩
        rw [delayLoop, if_neg hz, if_pos (by rw [hi])]
        exact q1 n (by omega)
      · have hi : s i = s l + 1 := by
          have e1 := h1 (i - 1)
          rw [show i - 1 + 1 = i by omega] at e1
          have e2 := hs (i - 1)
          rw [show i - 1 + 1 = i by omega] at e2
          omega
        have hne : ¬ BitVec.ofNat 32 (s l) = BitVec.ofNat 32 (s i) := by
          intro q
          have := congrArg BitVec.toNat q
          rw [BitVec.toNat_ofNat, BitVec.toNat_ofNat, hi] at this
          omega
        obtain ⟨j, N, q1, q2, q3⟩ := ih (i + 2) (i + 1) (msec - 1#32) h4 (by omega) rfl
        refine ⟨j, N + 1, fun n hn => ?_, ?_, fun hx => ?_⟩
        · obtain ⟨n, rfl⟩ : ∃ n', n = n' + 1 := ⟨n - 1, by omega⟩
          rw [delayLoop, if_neg hz, if_neg hne]
          exact q1 n (by omega)
        · have := h1 i
          omega
        · have e1 := q3 hx
          have e2 := hx (i - 1)
          rw [show i - 1 + 2 = i + 1 by omega] at e2
          have e3 := hs i
          omega

/-- The program calls `delay` with SysTick running, not inside an interrupt. -/
def thread : Ctx := ⟨true, true, false⟩

/-- **C72 (part).** `delay(msec)` outside of interrupts, with `u i` the time of the `i`-th reading of the milliseconds (restarts of SysTick): it does
not return before `msec` restarts, so it waits more than `msec − 1` milliseconds, however it is interrupted. -/
theorem C72_delay_at_least (load : Nat) (clk : U32) (r u : Nat → Nat) (hu : ∀ i, u i ≤ u (i + 1)) (msec : U32) (n : Nat) (o : Stop)
    (h : delay thread load clk r (fun i => u i / (load + 1)) n msec = some o) :
    ∃ j, o = .returned j ∧ u 0 / (load + 1) + msec.toNat ≤ u (j - 1) / (load + 1) ∧
      (0 < msec.toNat → u 0 + (msec.toNat - 1) * (load + 1) < u (j - 1)) := by
  unfold delay thread at h
  simp only [Bool.not_true, Bool.and_self, Bool.false_eq_true, if_false] at h
  cases hd : delayLoop (fun i => u i / (load + 1)) n 1 (BitVec.ofNat 32 (u 0 / (load + 1))) msec with
  | none => rw [hd] at h; cases h
  | some j =>
    rw [hd] at h
    cases h
    obtain ⟨q1, q2⟩ := delay_lower (s := fun i => u i / (load + 1)) (fun i => Nat.div_le_div_right (hu i)) n 1 0 msec (by omega) hd
    refine ⟨j, rfl, q2, fun hm => ?_⟩
    have e1 := Nat.div_add_mod (u 0) (load + 1)
    have e2 := Nat.div_add_mod (u (j - 1)) (load + 1)
    have e3 := Nat.mod_lt (u 0) (show load + 1 > 0 by omega)
    have e4 := Nat.mul_le_mul_left (load + 1) q2
    rw [Nat.mul_add] at e4
    obtain ⟨m, hm'⟩ : ∃ m, msec.toNat = m + 1 := ⟨msec.toNat - 1, by omega⟩
    rw [hm', Nat.mul_succ] at e4
    rw [hm', Nat.add_sub_cancel, Nat.mul_comm m]
    omega

/-- **C72 (part).** If no two restarts of SysTick fall between two readings, `delay(msec)` returns, after at most 2 × `msec` restarts; exactly `msec`
restarts if no two fall within three successive readings (the reading that finds a restart is followed by a second one, and
a restart between the two is lost). -/
theorem C72_delay_at_most (load : Nat) (clk : U32) (r u : Nat → Nat) (hu : ∀ i, u i ≤ u (i + 1)) (hb : ∀ b, ∃ i, b < u i)
    (h1 : ∀ i, u (i + 1) / (load + 1) ≤ u i / (load + 1) + 1) (msec : U32) :
    ∃ j N, (∀ n, N ≤ n → delay thread load clk r (fun i => u i / (load + 1)) n msec = some (.returned j)) ∧
      u (j - 1) / (load + 1) ≤ u 0 / (load + 1) + 2 * msec.toNat ∧
      ((∀ i, u (i + 2) / (load + 1) ≤ u i / (load + 1) + 1) → u (j - 1) / (load + 1) = u 0 / (load + 1) + msec.toNat ∧
        u (j - 1) < u 0 + (msec.toNat + 1) * (load + 1)) := by
  obtain ⟨j, N, q1, q2, q3⟩ := delay_ends (s := fun i => u i / (load + 1)) (fun i => Nat.div_le_div_right (hu i)) h1
    (fun b => by
      obtain ⟨i, hi⟩ := hb ((b + 1) * (load + 1))
      exact ⟨i, by
        have : b + 1 ≤ u i / (load + 1) := (Nat.le_div_iff_mul_le (by omega)).2 (Nat.le_of_lt hi)
        show b < u i / (load + 1)
        omega⟩) msec.toNat 1 0 msec rfl (by omega) rfl
  refine ⟨j, N, fun n hn => ?_, q2, fun hx => ⟨q3 hx, ?_⟩⟩
  · unfold delay thread
    simp only [Bool.not_true, Bool.and_self, Bool.false_eq_true, if_false]
    rw [q1 n hn]; rfl
  · have e0 := q3 hx
    have e1 := Nat.div_add_mod (u 0) (load + 1)
    have e2 := Nat.div_add_mod (u (j - 1)) (load + 1)
    have e3 := Nat.mod_lt (u (j - 1)) (show load + 1 > 0 by omega)
    rw [e0, Nat.mul_add] at e2
    rw [Nat.add_mul, Nat.one_mul, Nat.mul_comm msec.toNat]
    omega

/-- **C72 (violated part).** "Sleeping a number of milliseconds": called right before a restart of SysTick, `delay(1)` returns after two clocks. -/
theorem C72_delay_one_short (load : Nat) (h : 1 ≤ load) (clk : U32) (r : Nat → Nat) :
    delay thread load clk r (fun i => (load + i) / (load + 1)) 2 1#32 = some (.returned 3) := by
  have e0 : (load + 0) / (load + 1) = 0 := Nat.div_eq_of_lt (by omega)
  have e1 : (load + 1) / (load + 1) = 1 := Nat.div_self (by omega)
  have e2 : (load + 2) / (load + 1) = 1 := by
    rw [show load + 2 = 1 + (load + 1) by omega, Nat.add_div_right _ (by omega), Nat.div_eq_of_lt (by omega)]
  unfold delay thread
  simp only [Bool.not_true, Bool.and_self, Bool.false_eq_true, if_false]
  rw [delayLoop, if_neg (by decide), if_neg (by rw [e0, e1]; decide), delayLoop, if_pos (by decide)]
  rfl

/-- **C72 (violated part).** SysTick must be running and its interrupt be on. If both are off `delay` stops in `fatalError`; but if one of the two
is on the check passes, and with the milliseconds at rest `delay` waits for ever. -/
theorem C72_delay_hangs (load : Nat) (clk : U32) (r : Nat → Nat) (c : Nat) (msec : U32) (h : msec ≠ 0#32) (enabled tickInt : Bool) :
    (enabled = false ∧ tickInt = false → ∀ isr n, delay ⟨enabled, tickInt, isr⟩ load clk r (fun _ => c) n msec = some .fatal) ∧
    (enabled = true ∨ tickInt = true → ∀ n, delay ⟨enabled, tickInt, false⟩ load clk r (fun _ => c) n msec = none) := by
  have key : ∀ n i, delayLoop (fun _ => c) n i (BitVec.ofNat 32 c) msec = none := by
    intro n
    induction n with
    | zero => intro i; rfl
    | succ n ih => intro i; rw [delayLoop, if_neg h, if_pos rfl]; exact ih _
  constructor
  · rintro ⟨rfl, rfl⟩ isr n
    rfl
  · intro ho n
    unfold delay
    rw [if_neg (by rcases ho with rfl | rfl <;> simp)]
    simp only [Bool.false_eq_true, if_false]
    rw [key]; rfl

theorem isr_spec {load : Nat} (h : load < 65536) (h1 : 1 ≤ load) (clk : U32) (hc1 : 1000000 ≤ clk.toNat) (hc : clk.toNat < 500000000)
    (r : Nat → Nat) (G : Nat) (hr : Reads r G) (hG : G ≤ load) :
    ∀ (k i : Nat) (msec : U32), msec.toNat ≤ 4 * k + 4 → ∃ j N, i < j ∧
      (∀ n, N ≤ n → ∀ m, N ≤ m → delayIsr load clk r n m i msec = some (.returned j)) ∧
      r i + (1000 * msec.toNat - 2 * ((msec.toNat + 3) / 4)) * (clk.toNat / 1000000) ≤ r (j - 1) := by
  intro k
  have hmono : ∀ a b, a ≤ b → r a ≤ r b := fun a b => mono_of_le (fun i => Nat.le_of_lt (hr i).1)
  have last : ∀ i (msec : U32), msec.toNat ≤ 4 → ∃ j N, i < j ∧
      (∀ n, N ≤ n → ∀ m, N ≤ m → delayIsr load clk r n m i msec = some (.returned j)) ∧
      r i + (1000 * msec.toNat - 2 * ((msec.toNat + 3) / 4)) * (clk.toNat / 1000000) ≤ r (j - 1) := by
    intro i msec hm
    have e : (msec * 1000#32).toNat = 1000 * msec.toNat := by
      rw [BitVec.toNat_mul]
      show msec.toNat * 1000 % 2 ^ 32 = _
      omega
    obtain ⟨j, q1, ⟨N, q2⟩, q3⟩ := C72_micros_at_most load h h1 clk hc1 hc r G hr hG i (msec * 1000#32) (by omega)
    obtain ⟨j', a1, a2, a3⟩ := (C72_micros_at_least load h clk hc r (fun i => (hr i).1) i (msec * 1000#32)).2 (by omega) _ _ (q2 N (Nat.le_refl _))
    cases a1
    refine ⟨j, N + 1, q1, fun n hn m hm' => ?_, ?_⟩
    · obtain ⟨m, rfl⟩ : ∃ m', m = m' + 1 := ⟨m - 1, by omega⟩
      rw [delayIsr, if_neg (by rw [gt_iff_lt, BitVec.lt_def]; show ¬ 4 < _; omega)]
      exact q2 n (by omega)
    · rw [e] at a3
      refine Nat.le_trans ?_ a3
      refine Nat.add_le_add_left (Nat.mul_le_mul_right _ ?_) _
      omega
  induction k with
  | zero => exact fun i msec hm => last i msec (by omega)
  | succ k ih =>
    intro i msec hm
    by_cases h4 : msec.toNat ≤ 4
    · exact last i msec h4
    · obtain ⟨j, q1, ⟨N, q2⟩, q3⟩ := C72_micros_at_most load h h1 clk hc1 hc r G hr hG i 4000#32 (by decide)
      obtain ⟨j', a1, a2, a3⟩ := (C72_micros_at_least load h clk hc r (fun i => (hr i).1) i 4000#32).2 (by decide) _ _ (q2 N (Nat.le_refl _))
      cases a1
      have hs : (msec - 4#32).toNat = msec.toNat - 4 := by
        rw [BitVec.toNat_sub_of_le (by rw [BitVec.le_def]; show 4 ≤ _; omega)]; rfl
      obtain ⟨j2, N2, b1, b2, b3⟩ := ih j (msec - 4#32) (by omega)
      refine ⟨j2, max N N2 + 1, by omega, fun n hn m hm' => ?_, ?_⟩
      · obtain ⟨m, rfl⟩ : ∃ m', m = m' + 1 := ⟨m - 1, by omega⟩
        rw [delayIsr, if_pos (by rw [gt_iff_lt, BitVec.lt_def]; show 4 < _; omega), q2 n (by omega)]
        exact b2 n (by omega) m (by omega)
      · have hj := hmono (j - 1) j (by omega)
        rw [hs] at b3
        have e : (1000 * msec.toNat - 2 * ((msec.toNat + 3) / 4)) = (4000 - 2) + (1000 * (msec.toNat - 4) - 2 * ((msec.toNat - 4 + 3) / 4)) := by omega
        rw [e, Nat.add_mul]
        have a3' : r i + (4000 - 2) * (clk.toNat / 1000000) ≤ r (j - 1) := a3
        omega

/-- **C72 (part).** `delay` inside an interrupt returns, and waits at least `msec` milliseconds less the two microseconds that each of its pieces of at most
four milliseconds takes off for the call. -/
theorem C72_delay_in_interrupt (load : Nat) (h : load < 65536) (h1 : 1 ≤ load) (clk : U32) (hc1 : 1000000 ≤ clk.toNat) (hc : clk.toNat < 500000000)
    (r s : Nat → Nat) (G : Nat) (hr : Reads r G) (hG : G ≤ load) (msec : U32) :
    ∃ j N, (∀ n, N ≤ n → delay ⟨true, true, true⟩ load clk r s n msec = some (.returned j)) ∧
      r 0 + (1000 * msec.toNat - 2 * ((msec.toNat + 3) / 4)) * (clk.toNat / 1000000) ≤ r (j - 1) := by
  obtain ⟨j, N, q1, q2, q3⟩ := isr_spec h h1 clk hc1 hc r G hr hG msec.toNat 0 msec (by omega)
  refine ⟨j, N, fun n hn => ?_, q3⟩
  unfold delay
  simp only [Bool.not_true, Bool.and_self, Bool.false_eq_true, if_false, if_true]
  exact q2 n hn n hn

/-! ## Concrete cases -/

/-- A SysTick of 8 clocks and a clock of 1 MHz, read every three clocks: `delayMicroseconds(9)` waits for 7 clocks, and returns after 12. -/
example : Reads (fun i => 5 + 3 * i) 3 ∧ delayMicros 7 1000000#32 (fun i => 5 + 3 * i) 20 0 9#32 = some (.returned 4) :=
  ⟨fun i => ⟨by dsimp only; omega, by dsimp only; omega⟩, by decide +kernel⟩

example : Reads (fun i => 48 * i) 48 ∧ (48 : Nat) ≤ 40000 := ⟨fun i => ⟨by dsimp only; omega, by dsimp only; omega⟩, by decide⟩

example : delayMicros 7 1000000#32 (fun i => 5 + 3 * i) 20 0 4001#32 = some .fatal := by decide +kernel

/-- `delay(2)` with a reading at every clock: two restarts; and as an interrupt. -/
example : delay thread 7 1000000#32 id (fun i => (5 + i) / (7 + 1)) 30 2#32 = some (.returned 13) ∧
    (∀ i, (5 + i) ≤ (5 + (i + 1))) ∧ (∀ i, (5 + (i + 2)) / (7 + 1) ≤ (5 + i) / (7 + 1) + 1) :=
  ⟨by decide +kernel, fun i => by omega, fun i => by omega⟩

/-- A restart between the two readings is lost: four restarts instead of two. -/
example : delay thread 0 1000000#32 id (fun i => i / (0 + 1)) 30 2#32 = some (.returned 5) ∧ (5 - 1) / (0 + 1) = 0 / (0 + 1) + 2 * 2 := by decide +kernel

example : delay ⟨true, true, true⟩ 7 1000000#32 (fun i => 5 * i) (fun _ => 0) 2000 1#32 = some (.returned 229) := by decide +kernel

end Verif.Timer
