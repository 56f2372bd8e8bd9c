import Verif.Util.StreamTime

/-!
# C125: waiting for input

`Waited` and `Ended` are the specification: a function that reads from the stream either ends by a timeout, or its
result does not depend on the bytes behind those it has looked at.
-/

namespace Verif.StreamTime

open Verif.Text (skipToDigit isDigit)

/-- The `n` bytes of the stream from number `pos` on. -/
def bytes (e : Env) : Nat → Nat → List Byte
  | _, 0 => []
  | pos, n + 1 => e.src pos :: bytes e (pos + 1) n

/-- At moment `k1` at least `timeout` ms have passed since a moment `k0` of the call, and when the stream was looked at
the last time before, byte number `pos` had not arrived. (It was not looked at at all if the processor was kept busy
for the whole time between the first two looks at the clock, or with a timeout of zero.) -/
def Waited (e : Env) (timeout : U32) (k pos k1 : Nat) : Prop :=
  ∃ k0, k ≤ k0 ∧ k0 < k1 ∧ e.time k0 + timeout.toNat ≤ e.time k1 ∧ (k1 = k0 + 1 ∨ e.arr (k1 - 1) ≤ pos)

/-- The outcome `r` of a function that was called at moment `k` with the stream at `pos` and that returns at moment
`k'` with the stream at `pos'`, if `f` says what it does with all bytes given at once: either it waited in vain for the
next byte and `r` is the outcome for the bytes before it, or `r` is the outcome whatever follows. -/
def Ended (e : Env) (timeout : U32) (f : List Byte → α × List Byte) (k pos : Nat) (r : α) (k' pos' : Nat) : Prop :=
  ∃ m, pos' = pos + m ∧
    (f (bytes e pos m) = (r, []) ∧ (∃ k1, k' = k1 + 1 ∧ Waited e timeout k pos' k1) ∨
     ∀ n > 0, f (bytes e pos (m + n)) = (r, bytes e pos' n))

theorem time_le (e : Env) {a b : Nat} (h : a ≤ b) : e.time a ≤ e.time b := by
  induction b with
  | zero => have : a = 0 := by omega
            rw [this]; exact Nat.le_refl _
  | succ b ih =>
    by_cases hb : a = b + 1
    · rw [hb]; exact Nat.le_refl _
    · exact Nat.le_trans (ih (by omega)) (e.time_mono b)

theorem arr_le (e : Env) {a b : Nat} (h : a ≤ b) : e.arr a ≤ e.arr b := by
  induction b with
  | zero => have : a = 0 := by omega
            rw [this]; exact Nat.le_refl _
  | succ b ih =>
    by_cases hb : a = b + 1
    · rw [hb]; exact Nat.le_refl _
    · exact Nat.le_trans (ih (by omega)) (e.arr_mono b)

theorem elapsed_toNat (e : Env) {a b : Nat} (h : a ≤ b) :
    (elapsed e b (millis e a)).toNat = (e.time b - e.time a) % 2 ^ 32 := by
  have := time_le e h
  unfold elapsed millis
  rw [BitVec.toNat_sub, BitVec.toNat_ofNat, BitVec.toNat_ofNat]
  omega

/-- The processor is not kept away from the clock for so long that the 32 bit counter of milliseconds runs round. -/
def Attentive (e : Env) (timeout : U32) : Prop := ∀ k, e.time (k + 2) + timeout.toNat ≤ e.time k + 2 ^ 32

theorem timedLoop_spec (e : Env) (timeout : U32) (pos k : Nat) : ∀ (fuel j : Nat) (r : Option Byte) (k' : Nat), k < j →
    (j = k + 1 ∨ e.arr (j - 1) ≤ pos) →
    timedLoop e timeout (millis e k) pos fuel j = some (r, k') →
    j < k' ∧
    (∀ c, r = some c → j + 2 ≤ k' ∧ c = e.src pos ∧ pos < e.arr (k' - 1)) ∧
    (r = none → e.time k + timeout.toNat ≤ e.time (k' - 1) ∧ (k' = k + 2 ∨ e.arr (k' - 2) ≤ pos)) := by
  intro fuel
  induction fuel with
  | zero => intro j r k' _ _ h; exact absurd h (by simp [timedLoop])
  | succ fuel ih =>
    intro j r k' hkj hj h
    unfold timedLoop at h
    by_cases hc : elapsed e j (millis e k) < timeout
    · rw [if_pos hc] at h
      unfold next at h
      by_cases ha : pos < e.arr (j + 1)
      · rw [if_pos ha] at h
        injection h with h
        injection h with h1 h2
        subst h1; subst h2
        refine ⟨by omega, ?_, ?_⟩
        · intro c hc'
          injection hc' with hc'
          exact ⟨Nat.le_refl _, hc'.symm, ha⟩
        · intro hn; exact absurd hn (by simp)
      · rw [if_neg ha] at h
        have := ih (j + 2) r k' (by omega) (Or.inr (by show e.arr (j + 1) ≤ pos; omega)) h
        refine ⟨by omega, ?_, this.2.2⟩
        intro c hc'
        have h2 := this.2.1 c hc'
        exact ⟨by omega, h2.2⟩
    · rw [if_neg hc] at h
      injection h with h
      injection h with h1 h2
      subst h1; subst h2
      refine ⟨by omega, ?_, ?_⟩
      · intro c hc'; exact absurd hc' (by simp)
      · intro _
        have h3 : timeout.toNat ≤ (elapsed e j (millis e k)).toNat := by
          rw [BitVec.lt_def] at hc; omega
        rw [elapsed_toNat e (by omega)] at h3
        have h4 := Nat.mod_le (e.time j - e.time k) (2 ^ 32)
        have h5 := time_le e (show k ≤ j by omega)
        refine ⟨?_, ?_⟩
        · show e.time k + timeout.toNat ≤ e.time j
          omega
        · rcases hj with hj | hj
          · left; omega
          · right; exact hj

/-- **C125 (timed read).** A byte returned is the next one of the stream and has arrived. -1 is not returned before the
timeout is over, and only if the byte had not arrived when the stream was looked at the last time; also when the 32 bit
counter of milliseconds runs over in between. -/
theorem C125_timed_read (e : Env) (timeout : U32) (fuel k pos : Nat) (r : Option Byte) (k' : Nat)
    (h : timedNext e timeout fuel k pos = some (r, k')) :
    k < k' ∧ (∀ c, r = some c → c = e.src pos ∧ pos < e.arr k') ∧
    (r = none → ∃ k1, k' = k1 + 1 ∧ Waited e timeout k pos k1) := by
  have hs := timedLoop_spec e timeout pos k fuel (k + 1) r k' (by omega) (Or.inl rfl) h
  refine ⟨by omega, ?_, ?_⟩
  · intro c hc
    have := hs.2.1 c hc
    exact ⟨this.2.1, Nat.lt_of_lt_of_le this.2.2 (arr_le e (by omega))⟩
  · intro hn
    have := hs.2.2 hn
    refine ⟨k' - 1, by omega, k, Nat.le_refl _, by omega, this.1, ?_⟩
    rcases this.2 with h | h
    · left; omega
    · right
      rw [show k' - 1 - 1 = k' - 2 by omega]
      exact h

theorem timedLoop_prompt (e : Env) (timeout : U32) (hat : Attentive e timeout) (pos k : Nat) :
    ∀ (m j : Nat), k < j → e.time j < e.time k + 2 ^ 32 → e.time k + timeout.toNat ≤ e.time (j + 2 * m) →
    ∃ r k', timedLoop e timeout (millis e k) pos (m + 1) j = some (r, k') ∧
      ∀ i, j ≤ i → i + 2 < k' → (∃ q, i = j + 2 * q) → e.time i < e.time k + timeout.toNat := by
  intro m
  induction m with
  | zero =>
    intro j hj hlt hm
    refine ⟨none, j + 1, ?_, ?_⟩
    · unfold timedLoop
      rw [if_neg]
      rw [BitVec.lt_def, elapsed_toNat e (by omega)]
      have hm' : e.time k + timeout.toNat ≤ e.time j := hm
      rw [Nat.mod_eq_of_lt (by omega)]
      omega
    · intro i h1 h2; omega
  | succ m ih =>
    intro j hj hlt hm
    unfold timedLoop
    have hkj := time_le e (show k ≤ j by omega)
    by_cases hc : elapsed e j (millis e k) < timeout
    · rw [if_pos hc]
      have hc' : e.time j < e.time k + timeout.toNat := by
        rw [BitVec.lt_def, elapsed_toNat e (by omega), Nat.mod_eq_of_lt (by omega)] at hc
        omega
      cases hn : next e (j + 1) pos with
      | some c =>
        exact ⟨some c, j + 2, rfl, fun i h1 h2 _ => by omega⟩
      | none =>
        have hat' := hat j
        obtain ⟨r, k', h1, h2⟩ := ih (j + 2) (by omega) (by omega)
          (by rw [show j + 2 + 2 * m = j + 2 * (m + 1) by omega]; exact hm)
        refine ⟨r, k', h1, ?_⟩
        intro i hi1 hi2 ⟨q, hq⟩
        cases q with
        | zero => rw [hq]; exact hc'
        | succ q => exact h2 i (by omega) hi2 ⟨q, by omega⟩
    · rw [if_neg hc]
      exact ⟨none, j + 1, rfl, fun i h1 h2 _ => by omega⟩

/-- **C125 (no longer than the timeout).** The call ends as soon as the clock, when it is looked at, shows that the
timeout is over: all looks at the clock but the last (moments `k + 1`, `k + 3`, …) were within the timeout. -/
theorem C125_prompt (e : Env) (timeout : U32) (hat : Attentive e timeout) (k pos m : Nat)
    (hm : e.time k + timeout.toNat ≤ e.time (k + 1 + 2 * m)) :
    ∃ r k', timedNext e timeout (m + 1) k pos = some (r, k') ∧
      ∀ q, k + 1 + 2 * q + 2 < k' → e.time (k + 1 + 2 * q) < e.time k + timeout.toNat := by
  have h1 := hat k
  have h2 := e.time_mono (k + 1)
  have h3 := timeout.isLt
  by_cases ht : timeout.toNat = 0
  · -- the first look ends it
    refine ⟨none, k + 2, ?_, fun q h => by omega⟩
    unfold timedNext timedLoop
    rw [if_neg (by rw [BitVec.lt_def]; omega)]
  · obtain ⟨r, k', h4, h5⟩ := timedLoop_prompt e timeout hat pos k m (k + 1) (by omega)
      (by have : e.time (k + 1) ≤ e.time (k + 2) := h2
          omega) hm
    exact ⟨r, k', h4, fun q h => h5 _ (by omega) h ⟨q, rfl⟩⟩

/-- **C125 (a byte in time is received).** If the byte has arrived at a moment at which the stream is looked at, and the
looks at the clock up to then were within the timeout, the byte is returned. -/
theorem C125_in_time (e : Env) (timeout : U32) (k pos m : Nat) (harr : pos < e.arr (k + 2 + 2 * m))
    (hin : e.time (k + 1 + 2 * m) < e.time k + timeout.toNat) :
    ∃ k', timedNext e timeout (m + 1) k pos = some (some (e.src pos), k') ∧ k' ≤ k + 3 + 2 * m := by
  have hlt := timeout.isLt
  suffices ∀ (m j : Nat), k < j → pos < e.arr (j + 1 + 2 * m) → e.time (j + 2 * m) < e.time k + timeout.toNat →
      ∃ k', timedLoop e timeout (millis e k) pos (m + 1) j = some (some (e.src pos), k') ∧ k' ≤ j + 2 + 2 * m by
    obtain ⟨k', h1, h2⟩ := this m (k + 1) (by omega) (by rw [show k + 1 + 1 + 2 * m = k + 2 + 2 * m by omega]; exact harr) hin
    exact ⟨k', h1, by omega⟩
  intro m
  induction m with
  | zero =>
    intro j hj ha ht
    have h0 := time_le e (show k ≤ j by omega)
    have ht' : e.time j < e.time k + timeout.toNat := ht
    refine ⟨j + 2, ?_, by omega⟩
    unfold timedLoop
    rw [if_pos (by rw [BitVec.lt_def, elapsed_toNat e (by omega), Nat.mod_eq_of_lt (by omega)]; omega)]
    unfold next
    rw [if_pos (by exact ha)]
  | succ m ih =>
    intro j hj ha ht
    have h0 := time_le e (show k ≤ j by omega)
    have ht' := time_le e (show j ≤ j + 2 * (m + 1) by omega)
    unfold timedLoop
    rw [if_pos (by rw [BitVec.lt_def, elapsed_toNat e (by omega), Nat.mod_eq_of_lt (by omega)]; omega)]
    cases hn : next e (j + 1) pos with
    | some c =>
      unfold next at hn
      split at hn
      · injection hn with hn
        exact ⟨j + 2, by rw [hn], by omega⟩
      · exact absurd hn (by simp)
    | none =>
      obtain ⟨k', h1, h2⟩ := ih (j + 2) (by omega) (by rw [show j + 2 + 1 + 2 * m = j + 1 + 2 * (m + 1) by omega]; exact ha)
        (by rw [show j + 2 + 2 * m = j + 2 * (m + 1) by omega]; exact ht)
      exact ⟨k', h1, by omega⟩

/-- **C125 (timeout zero).** With a timeout of zero nothing is ever received, not even a byte that has arrived. -/
theorem C125_zero (e : Env) (fuel k pos : Nat) : timedNext e 0#32 (fuel + 1) k pos = some (none, k + 2) := by
  unfold timedNext timedLoop
  rw [if_neg (by rw [BitVec.lt_def]; simp)]

theorem Ended.cons {e : Env} {timeout : U32} {f g : List Byte → α × List Byte} {k k0 pos pos' k' : Nat} {r r' : α}
    (h : Ended e timeout f k (pos + 1) r k' pos') (hk : k0 ≤ k)
    (hfg : ∀ s t, f s = (r, t) → g (e.src pos :: s) = (r', t)) : Ended e timeout g k0 pos r' k' pos' := by
  obtain ⟨m, h1, h2⟩ := h
  refine ⟨m + 1, by omega, ?_⟩
  rcases h2 with ⟨h2, k1, h3, kk, h4⟩ | h2
  · exact Or.inl ⟨hfg _ _ h2, k1, h3, kk, by omega, h4.2⟩
  · refine Or.inr (fun n hn => ?_)
    rw [show m + 1 + n = (m + n) + 1 by omega]
    exact hfg _ _ (h2 n hn)

theorem Ended.timeout {e : Env} {timeout : U32} {f : List Byte → α × List Byte} {k pos k' : Nat} {r : α}
    (hf : f [] = (r, [])) (h : ∃ k1, k' = k1 + 1 ∧ Waited e timeout k pos k1) : Ended e timeout f k pos r k' pos :=
  ⟨0, rfl, Or.inl ⟨hf, h⟩⟩

theorem Ended.one {e : Env} {timeout : U32} {f : List Byte → α × List Byte} {k pos k' : Nat} {r : α}
    (hf : ∀ s, f (e.src pos :: s) = (r, s)) : Ended e timeout f k pos r k' (pos + 1) :=
  ⟨1, rfl, Or.inr (fun n _ => by rw [Nat.add_comm 1 n]; exact hf _)⟩

/-- **C125 (readBytes, readBytesUntil).** The bytes that arrive while the call waits are handled as `Text.readBytesUntil`
says of a stream that has them all at once (C54); the call ends early only by a timeout. -/
theorem C125_read_bytes (e : Env) (timeout : U32) (fuel : Nat) (term : Option Byte) (n k pos : Nat)
    (got : List Byte) (k' pos' : Nat) (h : readBytesUntil e timeout fuel term n k pos = some (got, k', pos')) :
    Ended e timeout (Text.readBytesUntil term n) k pos got k' pos' := by
  suffices ∀ (n k pos : Nat) (got : List Byte) (k' pos' : Nat),
      readBytesUntil e timeout fuel term n k pos = some (got, k', pos') →
      Ended e timeout (Text.readBytesUntil term n) k pos got k' pos' from this n k pos got k' pos' h
  clear h
  intro n
  induction n with
  | zero =>
    intro k pos got k' pos' h
    injection h with h
    injection h with h1 h2
    injection h2 with h2 h3
    subst h1; subst h2; subst h3
    exact ⟨0, rfl, Or.inr (fun n _ => by rw [Nat.zero_add]; rfl)⟩
  | succ n ih =>
    intro k pos got k' pos' h
    unfold readBytesUntil at h
    cases ht : timedNext e timeout fuel k pos with
    | none => rw [ht] at h; exact absurd h (by simp)
    | some p =>
      obtain ⟨r, kk⟩ := p
      rw [ht] at h
      have hs := C125_timed_read e timeout fuel k pos r kk ht
      cases r with
      | none =>
        injection h with h
        injection h with h1 h2
        injection h2 with h2 h3
        subst h1; subst h2; subst h3
        exact Ended.timeout rfl (hs.2.2 rfl)
      | some c =>
        have hc := (hs.2.1 c rfl).1
        simp only at h
        by_cases hterm : some c = term
        · rw [if_pos hterm] at h
          injection h with h
          injection h with h1 h2
          injection h2 with h2 h3
          subst h1; subst h2; subst h3
          refine Ended.one (fun s => ?_)
          unfold Text.readBytesUntil
          rw [if_pos (by rw [← hc]; exact hterm)]
        · rw [if_neg hterm] at h
          cases hr : readBytesUntil e timeout fuel term n kk (pos + 1) with
          | none => rw [hr] at h; exact absurd h (by simp)
          | some q =>
            obtain ⟨g, k2, p2⟩ := q
            rw [hr] at h
            injection h with h
            injection h with h1 h2
            injection h2 with h2 h3
            subst h1; subst h2; subst h3
            refine (ih kk (pos + 1) g k2 p2 hr).cons (by omega) ?_
            intro s t hst
            unfold Text.readBytesUntil
            rw [if_neg (by rw [← hc]; exact hterm), hst, ← hc]

/-- **C125 (find, findUntil).** The same for the search for a text (C54). -/
theorem C125_find (e : Env) (timeout : U32) (fuel g : Nat) (target term : List Byte) (k pos : Nat) (r : Bool)
    (k' pos' : Nat) (h : findLoop e timeout fuel target term g 0 0 k pos = some (r, k', pos')) :
    Ended e timeout (Text.findUntil target term) k pos r k' pos' := by
  suffices ∀ (g ti ei k pos : Nat) (r : Bool) (k' pos' : Nat),
      findLoop e timeout fuel target term g ti ei k pos = some (r, k', pos') →
      Ended e timeout (Text.findLoop target term ti ei) k pos r k' pos' from this g 0 0 k pos r k' pos' h
  clear h
  intro g
  induction g with
  | zero => intro ti ei k pos r k' pos' h; exact absurd h (by simp [findLoop])
  | succ g ih =>
    intro ti ei k pos r k' pos' h
    unfold findLoop at h
    cases ht : timedNext e timeout fuel k pos with
    | none => rw [ht] at h; exact absurd h (by simp)
    | some p =>
      obtain ⟨c, kk⟩ := p
      rw [ht] at h
      have hs := C125_timed_read e timeout fuel k pos c kk ht
      cases c with
      | none =>
        injection h with h
        injection h with h1 h2
        injection h2 with h2 h3
        subst h1; subst h2; subst h3
        exact Ended.timeout rfl (hs.2.2 rfl)
      | some c =>
        have hc := (hs.2.1 c rfl).1
        simp only at h
        by_cases hhit : target[ti]? = some c ∧ ti + 1 ≥ target.length
        · rw [if_pos hhit] at h
          injection h with h
          injection h with h1 h2
          injection h2 with h2 h3
          subst h1; subst h2; subst h3
          refine Ended.one (fun s => ?_)
          rw [Text.findLoop, ← hc, if_pos hhit]
        · rw [if_neg hhit] at h
          by_cases hterm : term.length > 0
          · rw [if_pos hterm] at h
            by_cases hm : term[ei]? = some c
            · rw [if_pos hm] at h
              by_cases he : ei + 1 ≥ term.length
              · rw [if_pos he] at h
                injection h with h
                injection h with h1 h2
                injection h2 with h2 h3
                subst h1; subst h2; subst h3
                refine Ended.one (fun s => ?_)
                rw [Text.findLoop, ← hc, if_neg hhit, if_pos hterm, if_pos hm, if_pos he]
              · rw [if_neg he] at h
                refine (ih _ _ _ _ _ _ _ h).cons (by omega) ?_
                intro s t hst
                rw [Text.findLoop, ← hc, if_neg hhit, if_pos hterm, if_pos hm, if_neg he]
                exact hst
            · rw [if_neg hm] at h
              refine (ih _ _ _ _ _ _ _ h).cons (by omega) ?_
              intro s t hst
              rw [Text.findLoop, ← hc, if_neg hhit, if_pos hterm, if_neg hm]
              exact hst
          · rw [if_neg hterm] at h
            refine (ih _ _ _ _ _ _ _ h).cons (by omega) ?_
            intro s t hst
            rw [Text.findLoop, ← hc, if_neg hhit, if_neg hterm]
            exact hst

theorem parseLoop_spec (e : Env) (timeout : U32) (fuel : Nat) (skip : Byte) (k0 : Nat) : ∀ (g : Nat) (value : BitVec 32)
    (c : Option Byte) (k pos : Nat) (v : BitVec 32) (k' pos' : Nat), k0 ≤ k → (∀ x, c = some x → x = e.src pos) →
    (c = none → ∃ k1, k = k1 + 1 ∧ Waited e timeout k0 pos k1) →
    parseLoop e timeout fuel skip g value c k pos = some (v, k', pos') →
    Ended e timeout (Text.parseLoop skip value) k0 pos v k' pos' := by
  intro g
  have hnone : ∀ (g : Nat) (value : BitVec 32) (k pos : Nat) (v : BitVec 32) (k' pos' : Nat),
      (∃ k1, k = k1 + 1 ∧ Waited e timeout k0 pos k1) →
      parseLoop e timeout fuel skip g value none k pos = some (v, k', pos') →
      Ended e timeout (Text.parseLoop skip value) k0 pos v k' pos' := by
    intro g value k pos v k' pos' hw h
    rw [show parseLoop e timeout fuel skip g value none k pos = some (value, k, pos) by cases g <;> rfl] at h
    injection h with h
    injection h with h1 h2
    injection h2 with h2 h3
    subst h1; subst h2; subst h3
    exact Ended.timeout rfl hw
  induction g with
  | zero =>
    intro value c k pos v k' pos' hk hc hn h
    cases c with
    | none => exact hnone 0 value k pos v k' pos' (hn rfl) h
    | some x => exact absurd h (by simp [parseLoop])
  | succ g ih =>
    intro value c k pos v k' pos' hk hc hn h
    cases c with
    | none => exact hnone (g + 1) value k pos v k' pos' (hn rfl) h
    | some x =>
      have hx := hc x rfl
      have hrec : ∀ value', (match timedNext e timeout fuel (k + 1) (pos + 1) with
          | none => none
          | some (c, k') => parseLoop e timeout fuel skip g value' c k' (pos + 1)) = some (v, k', pos') →
          Ended e timeout (Text.parseLoop skip value') k0 (pos + 1) v k' pos' := by
        intro value' h
        cases ht : timedNext e timeout fuel (k + 1) (pos + 1) with
        | none => rw [ht] at h; exact absurd h (by simp)
        | some p =>
          obtain ⟨c, kk⟩ := p
          rw [ht] at h
          have hs := C125_timed_read e timeout fuel (k + 1) (pos + 1) c kk ht
          refine ih value' c kk (pos + 1) v k' pos' (by omega) (fun y hy => (hs.2.1 y hy).1) ?_ h
          intro hcn
          obtain ⟨k1, h1, h2, h3, h4⟩ := hs.2.2 hcn
          exact ⟨k1, h1, h2, by omega, h4⟩
      unfold parseLoop at h
      by_cases hd : isDigit x = true
      · rw [if_pos hd] at h
        refine (hrec _ h).cons (Nat.le_refl _) ?_
        intro s t hst
        rw [Text.parseLoop, ← hx, if_pos hd]
        exact hst
      · rw [if_neg hd] at h
        by_cases hsk : x ≠ skip
        · rw [if_pos hsk] at h
          injection h with h
          injection h with h1 h2
          injection h2 with h2 h3
          subst h1; subst h2; subst h3
          refine ⟨0, rfl, Or.inr (fun n hn => ?_)⟩
          obtain ⟨n, rfl⟩ : ∃ n', n = n' + 1 := ⟨n - 1, by omega⟩
          rw [Nat.zero_add, bytes, Text.parseLoop, ← hx, if_neg hd, if_pos hsk]
        · rw [if_neg hsk] at h
          refine (hrec _ h).cons (Nat.le_refl _) ?_
          intro s t hst
          rw [Text.parseLoop, ← hx, if_neg hd, if_neg hsk]
          exact hst

theorem peekNextDigit_spec (e : Env) (timeout : U32) (fuel : Nat) : ∀ (g k pos : Nat) (c : Option Byte) (k' pos' : Nat),
    peekNextDigit e timeout fuel g k pos = some (c, k', pos') →
    k ≤ k' ∧ (∃ m, pos' = pos + m ∧ ∀ n, skipToDigit (bytes e pos (m + n)) = skipToDigit (bytes e pos' n)) ∧
    (∀ x, c = some x → x = e.src pos' ∧ (x = 0x2D#8 ∨ isDigit x = true)) ∧
    (c = none → ∃ k1, k' = k1 + 1 ∧ Waited e timeout k pos' k1) := by
  intro g
  induction g with
  | zero => intro k pos c k' pos' h; exact absurd h (by simp [peekNextDigit])
  | succ g ih =>
    intro k pos c k' pos' h
    unfold peekNextDigit at h
    cases ht : timedNext e timeout fuel k pos with
    | none => rw [ht] at h; exact absurd h (by simp)
    | some p =>
      obtain ⟨r, kk⟩ := p
      rw [ht] at h
      have hs := C125_timed_read e timeout fuel k pos r kk ht
      cases r with
      | none =>
        injection h with h
        injection h with h1 h2
        injection h2 with h2 h3
        subst h1; subst h2; subst h3
        exact ⟨by omega, ⟨0, rfl, fun n => by rw [Nat.zero_add]⟩, fun x hx => absurd hx (by simp), hs.2.2⟩
      | some x =>
        have hx := (hs.2.1 x rfl).1
        simp only at h
        by_cases hd : x = 0x2D#8 ∨ isDigit x = true
        · rw [if_pos hd] at h
          injection h with h
          injection h with h1 h2
          injection h2 with h2 h3
          subst h1; subst h2; subst h3
          refine ⟨by omega, ⟨0, rfl, fun n => by rw [Nat.zero_add]⟩, ?_, fun hx => absurd hx (by simp)⟩
          intro y hy
          injection hy with hy
          subst hy
          exact ⟨hx, hd⟩
        · rw [if_neg hd] at h
          obtain ⟨h1, ⟨m, h2, h3⟩, h4, h5⟩ := ih (kk + 1) (pos + 1) c k' pos' h
          refine ⟨by omega, ⟨m + 1, by omega, ?_⟩, h4, ?_⟩
          · intro n
            rw [show m + 1 + n = (m + n) + 1 by omega, bytes, skipToDigit, ← hx, if_neg hd]
            exact h3 n
          · intro hcn
            obtain ⟨k1, h6, h7, h8, h9⟩ := h5 hcn
            exact ⟨k1, h6, h7, by omega, h9⟩

theorem Ended.prepend {e : Env} {timeout : U32} {f g : List Byte → α × List Byte} {k k0 pos pos1 pos' k' m : Nat} {r : α}
    (h : Ended e timeout g k pos1 r k' pos') (hk : k0 ≤ k) (hp : pos1 = pos + m)
    (hfg : ∀ n, f (bytes e pos (m + n)) = g (bytes e pos1 n)) : Ended e timeout f k0 pos r k' pos' := by
  obtain ⟨m', h1, h2⟩ := h
  refine ⟨m + m', by omega, ?_⟩
  rcases h2 with ⟨h2, k1, h3, kk, h4⟩ | h2
  · exact Or.inl ⟨by rw [hfg]; exact h2, k1, h3, kk, by omega, h4.2⟩
  · refine Or.inr (fun n hn => ?_)
    rw [Nat.add_assoc, hfg]
    exact h2 n hn

/-- **C125 (parseInt).** The same for reading a number (C53). -/
theorem C125_parse (e : Env) (timeout : U32) (fuel g : Nat) (skip : Byte) (k pos : Nat) (v : BitVec 32)
    (k' pos' : Nat) (h : parseInt e timeout fuel g skip k pos = some (v, k', pos')) :
    Ended e timeout (Text.parseInt skip) k pos v k' pos' := by
  unfold parseInt at h
  cases hp : peekNextDigit e timeout fuel g k pos with
  | none => rw [hp] at h; exact absurd h (by simp)
  | some q =>
    obtain ⟨c, kk, pp⟩ := q
    rw [hp] at h
    obtain ⟨h1, ⟨m, h2, h3⟩, h4, h5⟩ := peekNextDigit_spec e timeout fuel g k pos c kk pp hp
    refine Ended.prepend (k := k) (pos1 := pp) (m := m) (g := Text.parseInt skip) ?_ (Nat.le_refl _) h2 ?_
    case refine_2 => intro n; unfold Text.parseInt; rw [h3]
    simp only at h
    cases c with
    | none =>
      rw [if_neg (by simp)] at h
      rw [show parseLoop e timeout fuel skip g 0#32 none kk pp = some (0#32, kk, pp) by cases g <;> rfl] at h
      injection h with h
      injection h with h6 h7
      injection h7 with h7 h8
      subst h6; subst h7; subst h8
      exact Ended.timeout rfl (h5 rfl)
    | some x =>
      obtain ⟨hx, hd⟩ := h4 x rfl
      -- the first round of the loop
      have first : ∀ (d : Byte), isDigit d = true → ∀ w kf pf,
          parseLoop e timeout fuel skip g 0#32 (some d) kk pp = some (w, kf, pf) →
          Ended e timeout (Text.parseLoop skip (0#32 * 10#32 + d.setWidth 32 - 0x30#32)) k (pp + 1) w kf pf := by
        intro d hd w kf pf h
        cases g with
        | zero => exact absurd h (by simp [parseLoop])
        | succ g =>
          unfold parseLoop at h
          rw [if_pos hd] at h
          cases ht : timedNext e timeout fuel (kk + 1) (pp + 1) with
          | none => rw [ht] at h; exact absurd h (by simp)
          | some p =>
            obtain ⟨c, k2⟩ := p
            rw [ht] at h
            have hs := C125_timed_read e timeout fuel (kk + 1) (pp + 1) c k2 ht
            refine parseLoop_spec e timeout fuel skip k g _ c k2 (pp + 1) w kf pf (by omega)
              (fun y hy => (hs.2.1 y hy).1) ?_ h
            intro hcn
            obtain ⟨k1, h6, h7, h8, h9⟩ := hs.2.2 hcn
            exact ⟨k1, h6, h7, by omega, h9⟩
      by_cases hminus : x = 0x2D#8
      · rw [if_pos (by rw [hminus])] at h
        cases hl : parseLoop e timeout fuel skip g 0#32 (some 0x30#8) kk pp with
        | none => rw [hl] at h; exact absurd h (by simp)
        | some q =>
          obtain ⟨w, kf, pf⟩ := q
          rw [hl] at h
          injection h with h
          injection h with h6 h7
          injection h7 with h7 h8
          subst h6; subst h7; subst h8
          refine (first 0x30#8 (by decide) w kf pf hl).cons (Nat.le_refl _) ?_
          intro s t hst
          unfold Text.parseInt
          rw [skipToDigit, ← hx, if_pos hd]
          simp only [hminus, if_true]
          rw [show (0#32 * 10#32 + 0x30#32 - 0x30#32 : BitVec 32) = 0#32 * 10#32 + (0x30#8).setWidth 32 - 0x30#32 by decide, hst]
      · rw [if_neg (by simpa using hminus)] at h
        have hdx : isDigit x = true := hd.resolve_left hminus
        refine (first x hdx v k' pos' h).cons (Nat.le_refl _) ?_
        intro s t hst
        unfold Text.parseInt
        rw [skipToDigit, ← hx, if_pos hd]
        simp only [if_neg hminus]
        rw [Text.parseLoop, if_pos hdx]
        exact hst

/-! ## Non-vacuity -/

/-- A millisecond passes at every fourth moment, shortly before the counter runs over; the bytes of "x-42;" arrive
three milliseconds apart. -/
def sample : Env where
  time k := 2 ^ 32 - 5 + k / 4
  arr k := k / 12
  src j := ([0x78#8, 0x2D#8, 0x34#8, 0x32#8, 0x3B#8] : List Byte).getD j 0x20#8
  time_mono k := by omega
  arr_mono k := by omega

/-- With a timeout of 5 ms the number is read, although the counter runs over in between … -/
example : parseInt sample 5#32 20 10 0x30#8 0 0 = some (-42#32, 61, 4) := by decide +kernel

/-- … with a timeout of 2 ms nothing is received, and readBytes gives up. -/
example : readBytesUntil sample 2#32 20 none 3 0 0 = some ([], 10, 0) := by decide +kernel

example : readBytesUntil sample 5#32 20 (some 0x34#8) 8 0 0 = some ([0x78#8, 0x2D#8], 37, 3) := by decide +kernel

example : findLoop sample 5#32 20 [0x34#8, 0x32#8] [0x3B#8] 10 0 0 0 0 = some (true, 50, 4) := by decide +kernel

/-- The processor of the sample is attentive, and the clock reaches the end of every timeout. -/
example : Attentive sample 1000#32 := by
  intro k
  show 2 ^ 32 - 5 + (k + 2) / 4 + 1000 ≤ 2 ^ 32 - 5 + k / 4 + 2 ^ 32
  omega

end Verif.StreamTime
