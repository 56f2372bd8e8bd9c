import Verif.Util.TimeModel

/-!
# C32 (Timeout) and C33 (Debouncer)
-/

namespace Verif.Time

theorem nonneg_iff (x : U32) : x.toInt ≥ 0 ↔ x.toNat < 2 ^ 31 := by
  rw [BitVec.toInt_eq_toNat_cond]
  have := x.isLt
  split <;> omega

/-! ## C32 -/

/-- How long a timeout started at `clock` with `ms` really takes: one millisecond more when the end would
fall on a multiple of 2^32 (the value 0 of the counter is used as "stopped" mark). -/
def duration (clock ms : Nat) : Nat := if (clock + ms) % 2 ^ 32 = 0 then ms + 1 else ms

theorem duration_ge (c d : Nat) : d ≤ duration c d ∧ duration c d ≤ d + 1 := by
  unfold duration; split <;> omega

theorem start_timeout (c : Nat) (ms : U32) (h : ms ≠ 0#32) :
    (Timeout.start c ms).timeout = millis (c + duration c ms.toNat) ∧ (Timeout.start c ms).timeout ≠ 0#32 := by
  unfold Timeout.start duration
  rw [if_neg (fun e => h e.symm)]
  dsimp only
  have hm := ms.isLt
  have e : (millis c + ms).toNat = (c + ms.toNat) % 2 ^ 32 := by
    unfold millis; simp only [BitVec.toNat_add, BitVec.toNat_ofNat]; omega
  by_cases hz : (c + ms.toNat) % 2 ^ 32 = 0
  · rw [if_pos hz, if_pos (BitVec.eq_of_toNat_eq (by rw [e, hz]; rfl))]
    have : millis c + ms = 0#32 := BitVec.eq_of_toNat_eq (by rw [e, hz]; rfl)
    rw [this]
    refine ⟨BitVec.eq_of_toNat_eq ?_, by decide⟩
    unfold millis; simp only [BitVec.toNat_add, BitVec.toNat_ofNat]; omega
  · have hne : millis c + ms ≠ 0#32 := fun h0 => hz (by rw [← e, h0]; rfl)
    rw [if_neg hz, if_neg hne]
    refine ⟨BitVec.eq_of_toNat_eq ?_, hne⟩
    rw [e]; unfold millis; simp only [BitVec.toNat_ofNat]

theorem expired_early {t : Timeout} {e q : Nat} (h : t.timeout = millis e) (h0 : t.timeout ≠ 0#32)
    (hlt : q < e) (hr : e ≤ q + 2 ^ 31) : t.expired q = (t, false) := by
  unfold Timeout.expired
  rw [if_pos h0, if_neg]
  rw [nonneg_iff, h]
  unfold millis
  simp only [BitVec.toNat_sub, BitVec.toNat_ofNat]
  omega

theorem expired_late {t : Timeout} {e q : Nat} (h : t.timeout = millis e) (h0 : t.timeout ≠ 0#32)
    (hle : e ≤ q) (hr : q < e + 2 ^ 31) : t.expired q = (.stop, true) := by
  unfold Timeout.expired
  rw [if_pos h0, if_pos]
  rw [ge_iff_le, ← ge_iff_le, nonneg_iff, h]
  unfold millis
  simp only [BitVec.toNat_sub, BitVec.toNat_ofNat]
  omega

theorem queries_append (t : Timeout) (xs ys : List Nat) :
    t.queries (xs ++ ys) = t.queries xs ++ (t.after xs).queries ys := by
  induction xs generalizing t with
  | nil => rfl
  | cons x xs ih => simp [Timeout.queries, Timeout.after, ih]

theorem queries_stopped (qs : List Nat) :
    Timeout.queries .stop qs = List.replicate qs.length false ∧ Timeout.after .stop qs = .stop := by
  induction qs with
  | nil => exact ⟨rfl, rfl⟩
  | cons q qs ih =>
    have : Timeout.expired .stop q = (.stop, false) := rfl
    simp [Timeout.queries, Timeout.after, this, ih, List.replicate_succ]

theorem queries_early {t : Timeout} {e : Nat} (h : t.timeout = millis e) (h0 : t.timeout ≠ 0#32)
    (qs : List Nat) (hq : ∀ q ∈ qs, q < e ∧ e ≤ q + 2 ^ 31) :
    t.queries qs = List.replicate qs.length false ∧ t.after qs = t := by
  induction qs with
  | nil => exact ⟨rfl, rfl⟩
  | cons q qs ih =>
    have hx := expired_early h h0 (hq q (by simp)).1 (hq q (by simp)).2
    have := ih (fun q hq' => hq q (by simp [hq']))
    simp [Timeout.queries, Timeout.after, hx, this, List.replicate_succ]

/-- **C32.** A timeout of `ms` (1 .. 2^31-1) milliseconds started when the clock shows `c`: whatever the
schedule of the queries, every query before `c + duration c ms` answers false, the first one at or
after this moment (at most 2^31 ms later) answers true, and all later ones false - however often the
32-bit counter wraps around in between. -/
theorem C32_expires_once (c : Nat) (ms : U32) (h0 : ms ≠ 0#32) (hms : ms.toNat < 2 ^ 31)
    (early : List Nat) (q : Nat) (later : List Nat)
    (hearly : ∀ e ∈ early, c ≤ e ∧ e < c + duration c ms.toNat)
    (hq : c + duration c ms.toNat ≤ q) (hq' : q < c + duration c ms.toNat + 2 ^ 31) :
    (Timeout.start c ms).queries (early ++ q :: later)
      = List.replicate early.length false ++ true :: List.replicate later.length false := by
  obtain ⟨ht, hne⟩ := start_timeout c ms h0
  have hd := duration_ge c ms.toNat
  have he := queries_early ht hne early (fun e he => ⟨(hearly e he).2, by have := (hearly e he).1; omega⟩)
  rw [queries_append, he.1, he.2]
  simp [Timeout.queries, expired_late ht hne hq hq', queries_stopped]

/-- **C32.** Never early and at most one millisecond late: `duration` is the requested time except when the
end falls on the counter value 0, then it is one millisecond more. -/
theorem C32_duration (c ms : Nat) : ms ≤ duration c ms ∧ duration c ms ≤ ms + 1 ∧
    ((c + ms) % 2 ^ 32 ≠ 0 → duration c ms = ms) := by
  unfold duration; split <;> omega

/-- **C32.** `started()` is true exactly until the timeout was reported or stopped; a timeout that was
stopped, or started with 0, never reports anything. -/
theorem C32_started (c : Nat) (ms : U32) (h0 : ms ≠ 0#32) (hms : ms.toNat < 2 ^ 31)
    (early : List Nat) (q : Nat) (later : List Nat)
    (hearly : ∀ e ∈ early, c ≤ e ∧ e < c + duration c ms.toNat)
    (hq : c + duration c ms.toNat ≤ q) (hq' : q < c + duration c ms.toNat + 2 ^ 31) :
    ((Timeout.start c ms).after early).started = true ∧
    ((Timeout.start c ms).after (early ++ q :: later)).started = false ∧
    (∀ t : Timeout, t.stopped = !t.started) := by
  obtain ⟨ht, hne⟩ := start_timeout c ms h0
  have hd := duration_ge c ms.toNat
  have he := queries_early ht hne early (fun e he => ⟨(hearly e he).2, by have := (hearly e he).1; omega⟩)
  refine ⟨by rw [he.2]; simp [Timeout.started, hne], ?_, ?_⟩
  · have : ∀ (t : Timeout) xs ys, t.after (xs ++ ys) = (t.after xs).after ys := by
      intro t xs ys
      induction xs generalizing t with
      | nil => rfl
      | cons x xs ih => simp [Timeout.after, ih]
    rw [this, he.2]
    simp [Timeout.after, expired_late ht hne hq hq', queries_stopped]
    rfl
  · intro t; simp [Timeout.stopped, Timeout.started]

theorem C32_stopped_never_expires (c : Nat) (qs : List Nat) :
    Timeout.queries .stop qs = List.replicate qs.length false ∧
    (Timeout.start c 0#32).queries qs = List.replicate qs.length false :=
  ⟨(queries_stopped qs).1, (queries_stopped qs).1⟩

/-- Non-vacuity, across the wrap-around of the counter: started 3 ms before it, 10 ms long. -/
example : (Timeout.start (2 ^ 32 - 3) 10#32).queries [2 ^ 32 - 1, 2 ^ 32 + 6, 2 ^ 32 + 8, 2 ^ 32 + 9]
    = [false, false, true, false] := by
  have := C32_expires_once (2 ^ 32 - 3) 10#32 (by decide) (by decide) [2 ^ 32 - 1, 2 ^ 32 + 6] (2 ^ 32 + 8)
    [2 ^ 32 + 9] (by decide) (by decide) (by decide)
  exact this

/-- **C32, finding.** Durations above 2^31 ms expire at once. -/
theorem C32_long_timeout_expires_at_once (c : Nat) (ms : U32) (h : 2 ^ 31 < ms.toNat)
    (hz : (c + ms.toNat) % 2 ^ 32 ≠ 0) : ((Timeout.start c ms).expired c).2 = true := by
  have h0 : ms ≠ 0#32 := by rintro rfl; simp at h
  obtain ⟨ht, hne⟩ := start_timeout c ms h0
  have hm := ms.isLt
  have hd : duration c ms.toNat = ms.toNat := by unfold duration; rw [if_neg hz]
  rw [hd] at ht
  unfold Timeout.expired
  rw [if_pos hne, if_pos]
  rw [nonneg_iff, ht]
  unfold millis
  simp only [BitVec.toNat_sub, BitVec.toNat_ofNat]
  omega

/-- **C32, finding.** An expiry that is not queried for 2^31 ms is reported late (here: not at a query
2^31 ms after the end). -/
theorem C32_missed_after_half_range : ((Timeout.start 5 10#32).expired (15 + 2 ^ 31)).2 = false := by decide

/-! ## C33 -/

/-- The samples are taken at non-decreasing times. -/
def Ordered (samples : List (Nat × Int)) : Prop := (samples.map Prod.fst).Pairwise (· ≤ ·)

/-- `StableSince samples from v`: there is a sample taken at time `from`, and it and every later one had
the value `v`. -/
def StableSince (samples : List (Nat × Int)) (since : Nat) (v : Int) : Prop :=
  ∃ before run, samples = before ++ run ∧ run ≠ [] ∧ (run.head?.map Prod.fst) = some since ∧ ∀ s ∈ run, s.2 = v

theorem run_append (d : Debouncer) (timeout : U32) (xs ys : List (Nat × Int)) :
    d.run timeout (xs ++ ys) = (d.run timeout xs).run timeout ys := by
  induction xs generalizing d with
  | nil => rfl
  | cons x xs ih => exact ih _

/-- Induction from the end. -/
theorem rev_ind {α : Type} {P : List α → Prop} (h0 : P []) (h1 : ∀ xs x, P xs → P (xs ++ [x])) : ∀ xs, P xs := by
  intro xs
  rw [← List.reverse_reverse xs]
  induction xs.reverse with
  | nil => exact h0
  | cons x ys ih => rw [List.reverse_cons]; exact h1 _ _ ih

/-- While a change is pending, `time` is the time of the sample that started the current run of equal
samples. -/
theorem pending_inv (d : Debouncer) (h0 : d.time = 0#32) (timeout : U32) (samples : List (Nat × Int)) :
    (d.run timeout samples).time ≠ 0#32 →
      ∃ since, (d.run timeout samples).time = millis since ∧
        StableSince samples since (d.run timeout samples).last := by
  revert samples
  apply rev_ind
  · intro h; exact absurd h0 h
  · intro xs s ih
    rw [run_append]
    show (Debouncer.debounce _ s.1 s.2 timeout).time ≠ 0#32 → _
    intro h
    show ∃ since, (Debouncer.debounce _ s.1 s.2 timeout).time = millis since ∧
      StableSince _ since (Debouncer.debounce _ s.1 s.2 timeout).last
    unfold Debouncer.debounce at h ⊢
    dsimp only at h ⊢
    split at h
    · rename_i hne
      rw [if_pos hne]
      exact ⟨s.1, rfl, xs, [s], rfl, by simp, rfl, by simp⟩
    · rename_i heq
      have heq : (d.run timeout xs).last = s.2 := Classical.byContradiction fun hc => heq hc
      split at h
      · exact absurd rfl h
      · rename_i hno
        rw [if_neg (fun hc => hc heq), if_neg hno]
        obtain ⟨since, e, b, r, e1, e2, e3, e4⟩ := ih h
        refine ⟨since, e, b, r ++ [s], by rw [e1, List.append_assoc], by simp, ?_, ?_⟩
        · cases r with
          | nil => exact absurd rfl e2
          | cons y ys => exact e3
        · intro x hx
          rcases List.mem_append.mp hx with hx | hx
          · exact e4 x hx
          · rw [List.mem_singleton.mp hx]; exact heq.symm

/-- **C33.** For every sequence of samples at non-decreasing times (the debouncer starting in the state the
constructor or `init` leaves it in): if a sample makes the debounced value change, then it changes to
the value of that sample, and all samples of the last `timeout` milliseconds (at least) had this same
value. -/
theorem C33_only_stable_values (d : Debouncer) (h0 : d.time = 0#32) (timeout : U32)
    (ht : timeout.toNat ≤ 2 ^ 31) (samples : List (Nat × Int)) (now : Nat) (v : Int)
    (hord : Ordered (samples ++ [(now, v)]))
    (hchg : (d.run timeout (samples ++ [(now, v)])).valid ≠ (d.run timeout samples).valid) :
    (d.run timeout (samples ++ [(now, v)])).valid = v ∧
    ∃ since, since + timeout.toNat ≤ now ∧ StableSince (samples ++ [(now, v)]) since v := by
  have hinv := pending_inv d h0 timeout samples
  rw [run_append] at hchg ⊢
  change (Debouncer.debounce _ now v timeout).valid ≠ _ at hchg
  show (Debouncer.debounce _ now v timeout).valid = v ∧ _
  unfold Debouncer.debounce at hchg ⊢
  dsimp only at hchg ⊢
  split at hchg
  · exact absurd rfl hchg
  · rename_i heq
    have heq : (d.run timeout samples).last = v := Classical.byContradiction fun hc => heq hc
    split at hchg
    · rename_i hc
      rw [if_neg (fun hc => hc heq), if_pos hc]
      refine ⟨rfl, ?_⟩
      obtain ⟨since, e, b, r, e1, e2, e3, e4⟩ := hinv hc.1
      refine ⟨since, ?_, b, r ++ [(now, v)], by rw [e1, List.append_assoc], by simp, ?_, ?_⟩
      · have hle : since ≤ now := by
          cases r with
          | nil => exact absurd rfl e2
          | cons y ys =>
            simp only [List.head?_cons, Option.map_some, Option.some.injEq] at e3
            unfold Ordered at hord
            rw [e1, List.map_append, List.map_append, List.pairwise_append] at hord
            have := hord.2.2 y.1 (by simp) now (by simp)
            omega
        have h2 := hc.2
        rw [nonneg_iff, e] at h2
        unfold millis at h2
        simp only [BitVec.toNat_sub, BitVec.toNat_add, BitVec.toNat_ofNat] at h2
        omega
      · cases r with
        | nil => exact absurd rfl e2
        | cons y ys => exact e3
      · intro x hx
        rcases List.mem_append.mp hx with hx | hx
        · rw [e4 x hx, heq]
        · rw [List.mem_singleton.mp hx]
    · exact absurd rfl hchg

theorem run_pending {d : Debouncer} {since : Nat} {v : Int} (hl : d.last = v)
    (ht : d.time = millis since) (hne : d.time ≠ 0#32) (timeout : U32) (hto : timeout.toNat < 2 ^ 31)
    (early : List (Nat × Int)) (he : ∀ s ∈ early, s.2 = v ∧ since ≤ s.1 ∧ s.1 < since + timeout.toNat) :
    d.run timeout early = d := by
  induction early with
  | nil => rfl
  | cons s ss ih =>
    obtain ⟨h1, h2, h3⟩ := he s (by simp)
    have : d.debounce s.1 s.2 timeout = d := by
      unfold Debouncer.debounce
      dsimp only
      rw [if_neg (by rw [h1]; exact fun hc => hc hl), if_neg]
      rintro ⟨-, h⟩
      rw [nonneg_iff, ht] at h
      unfold millis at h
      simp only [BitVec.toNat_sub, BitVec.toNat_add, BitVec.toNat_ofNat] at h
      omega
    show (d.debounce s.1 s.2 timeout).run timeout ss = d
    rw [this]
    exact ih (fun x hx => he x (by simp [hx]))

/-- **C33** (partial; missing: a change sampled while the counter is 0, `C33_change_at_zero_lost`).  An input that
changes to `v` at a sample at time `since` (not a multiple of 2^32) and keeps this
value is reported by the first sample taken at least `timeout` (at most `timeout` + 2^31) ms later. -/
theorem C33_constant_input_reported_partial (d : Debouncer) (timeout : U32) (hto : timeout.toNat < 2 ^ 31)
    (since : Nat) (v : Int) (hs : since % 2 ^ 32 ≠ 0) (hnew : d.last ≠ v)
    (early : List (Nat × Int)) (he : ∀ s ∈ early, s.2 = v ∧ since ≤ s.1 ∧ s.1 < since + timeout.toNat)
    (now : Nat) (h1 : since + timeout.toNat ≤ now) (h2 : now < since + timeout.toNat + 2 ^ 31) :
    (d.run timeout ((since, v) :: early ++ [(now, v)])).valid = v := by
  have hm : millis since ≠ 0#32 := by
    intro h
    have := congrArg BitVec.toNat h
    unfold millis at this
    simp only [BitVec.toNat_ofNat] at this
    omega
  have e1 : d.debounce since v timeout = { d with time := millis since, last := v } := by
    unfold Debouncer.debounce; rw [if_pos hnew]
  show ((d.debounce since v timeout).run timeout (early ++ [(now, v)])).valid = v
  rw [e1, run_append, run_pending (v := v) (since := since) rfl rfl hm timeout hto early he]
  show (Debouncer.debounce _ now v timeout).valid = v
  unfold Debouncer.debounce
  dsimp only
  rw [if_neg (fun hc => hc rfl), if_pos]
  refine ⟨hm, ?_⟩
  rw [nonneg_iff]
  unfold millis
  simp only [BitVec.toNat_sub, BitVec.toNat_add, BitVec.toNat_ofNat]
  omega

/-- Non-vacuity of both: a bouncing contact, reported 50 ms after the last change, across the wrap-around. -/
example : let d : Debouncer := ⟨0#32, 0, 0⟩
    let s := [(2 ^ 32 - 20, 1), (2 ^ 32 - 15, 0), (2 ^ 32 - 10, 1), (2 ^ 32 + 30, 1)]
    (d.run 50#32 s).valid = 0 ∧ (d.run 50#32 (s ++ [(2 ^ 32 + 40, 1)])).valid = 1 ∧
      Ordered (s ++ [(2 ^ 32 + 40, 1)]) := by
  refine ⟨by decide, by decide, ?_⟩
  unfold Ordered
  decide

/-- **C33, finding.** A change sampled when the 32-bit millisecond counter shows 0 is never reported, however
long the input stays constant. -/
theorem C33_change_at_zero_lost (d : Debouncer) (timeout : U32) (v : Int) (hnew : d.last ≠ v) (k : Nat)
    (later : List (Nat × Int)) (hl : ∀ s ∈ later, s.2 = v) :
    (d.run timeout ((k * 2 ^ 32, v) :: later)).valid = d.valid := by
  have hm : millis (k * 2 ^ 32) = 0#32 := by
    apply BitVec.eq_of_toNat_eq
    unfold millis
    simp only [BitVec.toNat_ofNat]
    omega
  have e1 : d.debounce (k * 2 ^ 32) v timeout = { d with time := 0#32, last := v } := by
    unfold Debouncer.debounce; rw [if_pos hnew, hm]
  show ((d.debounce _ v timeout).run timeout later).valid = _
  rw [e1]
  suffices h : ∀ d : Debouncer, d.time = 0#32 → d.last = v → d.run timeout later = d by
    rw [h _ rfl rfl]
  intro d h1 h2
  induction later with
  | nil => rfl
  | cons s ss ih =>
    have : d.debounce s.1 s.2 timeout = d := by
      unfold Debouncer.debounce
      dsimp only
      rw [if_neg (by rw [hl s (by simp)]; exact fun hc => hc h2), if_neg (fun hc => hc.1 h1)]
    show (d.debounce s.1 s.2 timeout).run timeout ss = d
    rw [this]
    exact ih (fun x hx => hl x (by simp [hx]))

/-- **C33, finding.** `init(value)` does not reset the last sample: an input equal to that sample but
different from `value` is never reported. -/
theorem C33_init_blocks_value (d : Debouncer) (timeout : U32) (value : Int)
    (samples : List (Nat × Int)) (hs : ∀ s ∈ samples, s.2 = d.last) :
    ((d.init value).run timeout samples).valid = value := by
  suffices h : ∀ e : Debouncer, e.time = 0#32 → e.last = d.last → e.run timeout samples = e by
    rw [h (d.init value) rfl rfl]; rfl
  intro e h1 h2
  induction samples with
  | nil => rfl
  | cons s ss ih =>
    have : e.debounce s.1 s.2 timeout = e := by
      unfold Debouncer.debounce
      dsimp only
      rw [if_neg (by rw [hs s (by simp)]; exact fun hc => hc h2), if_neg (fun hc => hc.1 h1)]
    show (e.debounce s.1 s.2 timeout).run timeout ss = e
    rw [this]
    exact ih (fun x hx => hs x (by simp [hx]))

end Verif.Time
