import Verif.Com.Rate

/-!
# Properties of the rate limit for group telegrams: C21
-/

namespace Verif.Rate

/-! ## Specification -/

/-- The times of the events ascend, starting at `now`. -/
def Timed : Nat → List Ev → Prop
  | _, [] => True
  | now, .loop t1 tq t2 t3 _ :: es => now ≤ t1 ∧ t1 ≤ tq ∧ tq ≤ t2 ∧ t2 ≤ t3 ∧ Timed t3 es
  | now, .limit _ :: es => Timed now es

/-- Every telegram is queued at least the interval in force after the one before it (`last` for the first). -/
def Spaced : Nat → List (Nat × Nat) → Prop
  | _, [] => True
  | last, (t, w) :: q => last + w ≤ t ∧ Spaced t q

/-- Number of telegrams queued at times from `a` (inclusive) to `b` (exclusive). -/
def countIn (a b : Nat) (q : List (Nat × Nat)) : Nat := (q.filter (fun p => decide (a ≤ p.1 ∧ p.1 < b))).length

/-! ## Proofs -/

/-- `groupTelSent` is a real time between the last transmission and now, modulo 2^32. -/
def Inv (last now : Nat) (s : St) : Prop := ∃ r, last ≤ r ∧ r ≤ now ∧ s.sent = r % 2 ^ 32

theorem elapsed_eq (t r : Nat) (h : r ≤ t) : elapsed t (r % 2 ^ 32) = (t - r) % 2 ^ 32 := by unfold elapsed; omega

theorem run_spaced : ∀ (es : List Ev) (s : St) (last now : Nat), Inv last now s → Timed now es → Spaced last (run s es).2
  | [], _, _, _, _, _ => trivial
  | .limit n :: es, s, last, now, h, ht => by
    have : Inv last now (setLimit s n) := by
      obtain ⟨r, h1, h2, h3⟩ := h
      refine ⟨r, h1, h2, ?_⟩
      unfold setLimit; split <;> exact h3
    exact run_spaced es _ last now this ht
  | .loop t1 tq t2 t3 ready :: es, s, last, now, h, ht => by
    obtain ⟨h1, h2, h3, h4, h5⟩ := ht
    obtain ⟨r, r1, r2, r3⟩ := h
    have tail : ∀ (s' : St) (r' : Nat), s'.sent = r' % 2 ^ 32 → r' ≤ t3 →
        ∃ r'', r' ≤ r'' ∧ r'' ≤ t3 ∧
          (if elapsed t3 s'.sent ≥ 2000 then { s' with sent := (s'.sent + 1000) % 2 ^ 32 } else s').sent = r'' % 2 ^ 32 := by
      intro s' r' e hle
      rw [e, elapsed_eq t3 r' hle]
      split
      · exact ⟨r' + 1000, by omega, by omega, by simp only; omega⟩
      · exact ⟨r', Nat.le_refl _, hle, e⟩
    unfold run
    simp only [step, loopGroup]
    by_cases hw : elapsed t1 s.sent ≥ s.wait
    · rw [if_pos hw]
      cases ready
      · simp only [Bool.false_eq_true, if_false, List.nil_append]
        obtain ⟨r', a1, a2, a3⟩ := tail s r r3 (by omega)
        exact run_spaced es _ last t3 ⟨r', by omega, a2, a3⟩ h5
      · simp only [if_true, List.cons_append, List.nil_append]
        have hR : elapsed t1 s.sent = (t1 - r) % 2 ^ 32 := by rw [r3]; exact elapsed_eq t1 r (by omega)
        refine ⟨by omega, ?_⟩
        obtain ⟨r', a1, a2, a3⟩ := tail { s with sent := t2 % 2 ^ 32 } t2 rfl h4
        exact run_spaced es _ tq t3 ⟨r', by omega, a2, a3⟩ h5
    · rw [if_neg hw]
      simp only [List.nil_append]
      obtain ⟨r', a1, a2, a3⟩ := tail s r r3 (by omega)
      exact run_spaced es _ last t3 ⟨r', by omega, a2, a3⟩ h5

/-- **C21.** Whatever the schedule of `loop()` and whatever the length of the history (including any number of wraps of
the 32-bit clock): two group telegrams sent by `loop()` are at least the configured interval apart, also right after an
idle period; the first one is at least one interval after the start. -/
theorem C21_interval_kept (t0 : Nat) (es : List Ev) (h : Timed t0 es) : Spaced t0 (run (start t0) es).2 :=
  run_spaced es _ t0 t0 ⟨t0, Nat.le_refl _, Nat.le_refl _, rfl⟩ h

/-- **C21.** The configured interval: 1000 ms divided by the limit, or the default of 35 ms (28 telegrams per second) if
the limit is 0 or above 28. -/
theorem C21_interval (s : St) (limit : Nat) :
    (setLimit s limit).wait = if 1 ≤ limit ∧ limit ≤ 28 then 1000 / limit else 35 := by
  unfold setLimit defaultWait
  by_cases h : limit > 0 ∧ limit ≤ 28
  · rw [if_pos h, if_pos (by omega)]
  · rw [if_neg h, if_neg (by omega)]

theorem spaced_count (w : Nat) : ∀ (q : List (Nat × Nat)) (last a b : Nat), Spaced last q → (∀ p ∈ q, p.2 = w) →
    countIn a b q = 0 ∨ countIn a b q * w + last + 1 ≤ b
  | [], last, a, b, _, _ => Or.inl rfl
  | (t, w') :: q, last, a, b, hs, hq => by
    obtain ⟨h1, h2⟩ := hs
    have e : w' = w := hq (t, w') (by simp)
    subst e
    have ih := spaced_count w' q t a b h2 (fun p hp => hq p (by simp [hp]))
    by_cases hin : a ≤ t ∧ t < b
    · have ec : countIn a b ((t, w') :: q) = countIn a b q + 1 := by
        unfold countIn; rw [List.filter_cons_of_pos (by simpa using hin)]; rfl
      rw [ec, Nat.add_mul]
      right
      rcases ih with ih | ih
      · rw [ih]; omega
      · omega
    · have ec : countIn a b ((t, w') :: q) = countIn a b q := by
        unfold countIn; rw [List.filter_cons_of_neg (by simpa using hin)]
      rw [ec]
      omega

theorem countIn_later (w : Nat) (hw : 0 < w) : ∀ (q : List (Nat × Nat)) (last a len : Nat), Spaced last q → (∀ p ∈ q, p.2 = w) →
    countIn a (a + len) q * w ≤ len + w - 1
  | [], _, _, _, _, _ => by simp [countIn]
  | (t, w') :: q, last, a, len, hs, hq => by
    obtain ⟨h1, h2⟩ := hs
    have e : w' = w := hq (t, w') (by simp)
    subst e
    have hq' : ∀ p ∈ q, p.2 = w' := fun p hp => hq p (by simp [hp])
    by_cases hin : a ≤ t ∧ t < a + len
    · have ec : countIn a (a + len) ((t, w') :: q) = countIn a (a + len) q + 1 := by
        unfold countIn; rw [List.filter_cons_of_pos (by simpa using hin)]; rfl
      rw [ec, Nat.add_mul]
      rcases spaced_count w' q t a (a + len) h2 hq' with ih | ih
      · rw [ih]; omega
      · omega
    · have ec : countIn a (a + len) ((t, w') :: q) = countIn a (a + len) q := by
        unfold countIn; rw [List.filter_cons_of_neg (by simpa using hin)]
      rw [ec]
      exact countIn_later w' hw q t a len h2 hq'

/-- **C21.** Rate: if the interval `w` was in force all the time, then in any window of `len` ms at most
`(len + w - 1) / w` telegrams (the quotient rounded up) are queued. -/
theorem C21_rate (t0 : Nat) (es : List Ev) (h : Timed t0 es) (w : Nat) (hw : 0 < w) (hall : ∀ p ∈ (run (start t0) es).2, p.2 = w)
    (a len : Nat) : countIn a (a + len) (run (start t0) es).2 ≤ (len + w - 1) / w := by
  rw [Nat.le_div_iff_mul_le hw]
  exact countIn_later w hw _ t0 a len (C21_interval_kept t0 es h) hall

/-- The group-telegram part of `loop()` runs at least once per second. -/
def Regular : Nat → List Ev → Prop
  | _, [] => True
  | now, .loop _ _ _ t3 _ :: es => t3 ≤ now + 1000 ∧ Regular t3 es
  | now, .limit _ :: es => Regular now es

/-- Time of the last telegram in a history, `t0` if there is none. -/
def lastSent (t0 : Nat) (q : List (Nat × Nat)) : Nat := (q.getLast?.map (·.1)).getD t0

/-- Nothing is lost, `groupTelSent` is at most 2 s behind, and if it was moved it is at least 1 s behind. -/
def Inv2 (last now : Nat) (s : St) : Prop :=
  s.wait ≤ 1000 ∧ ∃ r, r ≤ now ∧ now < r + 2000 ∧ s.sent = r % 2 ^ 32 ∧ (r ≤ last ∨ r + 1000 ≤ now)

/-- Time of the end of a history. -/
def endTime : Nat → List Ev → Nat
  | now, [] => now
  | _, .loop _ _ _ t3 _ :: es => endTime t3 es
  | now, .limit _ :: es => endTime now es

/-- The last `millis()` after queueing a telegram, `now` if there is none. -/
def lastStamp (last : Nat) (s : St) : List Ev → Nat
  | [] => last
  | .loop t1 tq t2 t3 ready :: es =>
    lastStamp (if (loopGroup s t1 tq t2 t3 ready).2.isSome then t2 else last) (loopGroup s t1 tq t2 t3 ready).1 es
  | .limit n :: es => lastStamp last (setLimit s n) es

theorem setLimit_wait (s : St) (n : Nat) : (setLimit s n).wait ≤ 1000 ∧ (setLimit s n).sent = s.sent := by
  unfold setLimit defaultWait
  split
  · refine ⟨?_, rfl⟩
    exact Nat.div_le_self _ _
  · exact ⟨Nat.div_le_self _ _, rfl⟩

theorem loopGroup_inv2 {s : St} {last now t1 tq t2 t3 : Nat} {ready : Bool} (h : Inv2 last now s) (h1 : now ≤ t1) (h2 : t1 ≤ tq)
    (h3 : tq ≤ t2) (h4 : t2 ≤ t3) (h5 : t3 ≤ now + 1000) :
    Inv2 (if (loopGroup s t1 tq t2 t3 ready).2.isSome then t2 else last) t3 (loopGroup s t1 tq t2 t3 ready).1 := by
  obtain ⟨hw, r, r1, r2, r3, r4⟩ := h
  have tail : ∀ (s' : St) (last' r' : Nat), s'.wait ≤ 1000 → s'.sent = r' % 2 ^ 32 → r' ≤ t3 → t3 < r' + 3000 → (r' ≤ last' ∨ r' + 1000 ≤ t3) →
      Inv2 last' t3 (if elapsed t3 s'.sent ≥ 2000 then { s' with sent := (s'.sent + 1000) % 2 ^ 32 } else s') := by
    intro s' last' r' hw' e hle hlt hor
    rw [e, elapsed_eq t3 r' hle]
    by_cases hc : (t3 - r') % 2 ^ 32 ≥ 2000
    · rw [if_pos hc]
      exact ⟨hw', r' + 1000, by omega, by omega, by simp only; omega, by omega⟩
    · rw [if_neg hc]
      exact ⟨hw', r', by omega, by omega, e, hor⟩
  by_cases hc : elapsed t1 s.sent ≥ s.wait
  · cases ready
    · have e : loopGroup s t1 tq t2 t3 false =
          (if elapsed t3 s.sent ≥ 2000 then { s with sent := (s.sent + 1000) % 2 ^ 32 } else s, none) := by
        simp only [loopGroup, if_pos hc, Bool.false_eq_true, if_false]
      rw [e]
      exact tail s last r hw r3 (by omega) (by omega) (by omega)
    · have e : loopGroup s t1 tq t2 t3 true = (if elapsed t3 (t2 % 2 ^ 32) ≥ 2000
          then { s with sent := (t2 % 2 ^ 32 + 1000) % 2 ^ 32 } else { s with sent := t2 % 2 ^ 32 }, some tq) := by
        simp only [loopGroup, if_pos hc, if_true]
      rw [e]
      exact tail { s with sent := t2 % 2 ^ 32 } t2 t2 hw rfl h4 (by omega) (Or.inl (Nat.le_refl _))
  · have e : loopGroup s t1 tq t2 t3 ready =
        (if elapsed t3 s.sent ≥ 2000 then { s with sent := (s.sent + 1000) % 2 ^ 32 } else s, none) := by
      simp only [loopGroup, if_neg hc]
    rw [e]
    exact tail s last r hw r3 (by omega) (by omega) (by omega)

theorem run_inv2 : ∀ (es : List Ev) (s : St) (last now : Nat), Inv2 last now s → Timed now es → Regular now es →
    Inv2 (lastStamp last s es) (endTime now es) (run s es).1
  | [], _, _, _, h, _, _ => h
  | .limit n :: es, s, last, now, h, ht, hr => by
    apply run_inv2 es (setLimit s n) last now _ ht hr
    obtain ⟨_, r, r1, r2, r3, r4⟩ := h
    exact ⟨(setLimit_wait s n).1, r, r1, r2, by rw [(setLimit_wait s n).2]; exact r3, r4⟩
  | .loop t1 tq t2 t3 ready :: es, s, last, now, h, ht, hr => by
    obtain ⟨h1, h2, h3, h4, h5⟩ := ht
    obtain ⟨hr1, hr2⟩ := hr
    have hi := loopGroup_inv2 (ready := ready) h h1 h2 h3 h4 hr1
    have := run_inv2 es _ _ t3 hi h5 hr2
    have e : (step s (.loop t1 tq t2 t3 ready)).1 = (loopGroup s t1 tq t2 t3 ready).1 := by
      simp only [step]
      split <;> (rename_i heq; rw [heq])
    unfold run
    rw [e]
    exact this

/-- **C21.** The limit delays a telegram no longer than necessary: if the group part of `loop()` runs at least once per
second, then a call that comes at least the interval after the last telegram sends what is pending. In particular no
wrap of the clock and no idle period makes the device mute. -/
theorem C21_sends_when_due (t0 : Nat) (es : List Ev) (h : Timed t0 es) (hr : Regular t0 es)
    (t1 tq t2 t3 : Nat) (h1 : endTime t0 es ≤ t1) (h2 : t1 ≤ endTime t0 es + 1000)
    (hdue : lastStamp t0 (start t0) es + (run (start t0) es).1.wait ≤ t1) :
    (loopGroup (run (start t0) es).1 t1 tq t2 t3 true).2 = some tq := by
  have I := run_inv2 es (start t0) t0 t0 ⟨by show defaultWait ≤ 1000; decide, t0, by omega, by omega, rfl, Or.inl (Nat.le_refl _)⟩ h hr
  obtain ⟨hw, r, r1, r2, r3, r4⟩ := I
  generalize run (start t0) es = q at *
  simp only [loopGroup]
  rw [r3, elapsed_eq t1 r (by omega), if_pos (by omega)]
  rfl

-- limit 10 per second: three telegrams, one refused, over a wrap of the clock
example : (run (start 4294967290) [.limit 10, .loop 4294967300 4294967300 4294967300 4294967300 true,
    .loop 4294967400 4294967401 4294967402 4294967402 true, .loop 4294967500 4294967500 4294967500 4294967500 true,
    .loop 4294967502 4294967502 4294967502 4294967502 true]).2 = [(4294967401, 100), (4294967502, 100)] := by decide +kernel
example : Timed 4294967290 [.limit 10, .loop 4294967300 4294967300 4294967300 4294967300 true,
    .loop 4294967400 4294967401 4294967402 4294967402 true] := by simp [Timed]
example : Regular 0 [.loop 1000 1000 1000 1000 true, .loop 2000 2000 2000 2000 false] := by simp [Regular]

end Verif.Rate
