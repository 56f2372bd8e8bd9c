import Verif.Dev.Props62
import Verif.Dev.FrameRead

/-!
# C63: the programming button and the programming mode

Model: `Verif.Dev.Loop`.  The button is debounced; each press toggles the programming mode, whatever the
telegrams, the transmissions and the times of the loops.
-/

namespace Verif.Dev

open Verif.Knx

/-! ## Specification -/

section
variable (W : World) (group : Dev → Buf → Nat → Dev × Option (Buf → Buf))

/-- The device runs its loop. -/
def Running (m : Main) : Prop := m.off = none ∧ m.tl.enabled = true

instance (m : Main) : Decidable (Running m) := by unfold Running; infer_instance

/-- The samples of the programming pin the loops of a history take: time and level (0: pressed). -/
def samples : Main → List MainEv → List (Nat × Int)
  | _, [] => []
  | m, e :: es =>
    (match e with
      | .loop i => if Running m then [(m.tl.clock, i.pin)] else []
      | _ => []) ++ samples (mainStep W group m e).1 es

end

/-- The telegram of a memory write service that was executed. -/
def MemoryWrite (o : List MainOut) : Prop :=
  ∃ t l, apciCommand t = 0x280#16 ∧ (.bus (.apciConnected t l) ∈ o ∨ .bus (.apciIndividual t l) ∈ o)

/-- The debounced level after these samples, with `s0` the state of the debouncer before them. -/
def level (s0 : Time.Debouncer) (s : List (Nat × Int)) : Int := (s0.run 50#32 s).valid

/-- The last of these samples completes a press: the debounced level falls. -/
def Press (s0 : Time.Debouncer) (s : List (Nat × Int)) (x : Nat × Int) : Prop :=
  level s0 s ≠ 0 ∧ level s0 (s ++ [x]) = 0

instance (s0 : Time.Debouncer) (s : List (Nat × Int)) (x : Nat × Int) : Decidable (Press s0 s x) := by
  unfold Press; infer_instance

/-- The parity of the status byte. -/
def parity (b : Byte) : Bool :=
  (((((((b.getLsbD 0 ^^ b.getLsbD 1) ^^ b.getLsbD 2) ^^ b.getLsbD 3) ^^ b.getLsbD 4) ^^ b.getLsbD 5) ^^
    b.getLsbD 6) ^^ b.getLsbD 7)

/-- Programming mode switched, all else as before, except the parity bit, which keeps the parity. -/
def Toggled (b b' : Byte) : Prop :=
  b'.getLsbD 0 = !b.getLsbD 0 ∧ (∀ k, 1 ≤ k → k ≤ 6 → b'.getLsbD k = b.getLsbD k) ∧ parity b' = parity b

/-! ## Lemmas -/

theorem toggled (b : Byte) : Toggled b (b ^^^ 0x81#8) := by
  have h : ∀ b : Byte, (b ^^^ 0x81#8).getLsbD 0 = !b.getLsbD 0 ∧ parity (b ^^^ 0x81#8) = parity b := by
    decide +kernel
  refine ⟨(h b).1, ?_, (h b).2⟩
  intro k h1 h2
  have : k = 1 ∨ k = 2 ∨ k = 3 ∨ k = 4 ∨ k = 5 ∨ k = 6 := by omega
  rcases this with rfl | rfl | rfl | rfl | rfl | rfl <;> simp

section
variable (W : World) (group : Dev → Buf → Nat → Dev × Option (Buf → Buf))

theorem setOwn_status (d : Dev) (a : Word) : (setOwnAddress W d a).status = d.status := by
  unfold setOwnAddress setOwnAddressDefault
  dsimp only
  repeat' split
  all_goals rfl

theorem broadcast_status (d : Dev) (t : Buf) : (broadcast W d t).1.status = d.status := by
  unfold broadcast defaultBroadcast
  dsimp only
  repeat' split
  all_goals first | rfl | exact setOwn_status W d _

theorem setArea_status (d : Dev) (p : PropDef) (f : Nat → Byte) : (setArea d p f).status = d.status := by
  unfold setArea; split <;> rfl

theorem propRead_status (d : Dev) (obj pid count start : Nat) (sb : Buf) :
    (propRead W d obj pid count start sb).1.status = d.status := by
  unfold propRead
  cases propertyDef obj pid with
  | none => rfl
  | some p =>
    dsimp only
    repeat' split
    all_goals rfl

theorem propWrite_status (d : Dev) (t : Buf) (l : Nat) (obj pid count start : Nat) (sb : Buf) :
    (propWrite W d t l obj pid count start sb).1.status = d.status := by
  unfold propWrite
  cases propertyDef obj pid with
  | none => rfl
  | some p =>
    dsimp only
    split
    · rfl
    · split
      · exact (loadProperty_eeOnly (W := W) d obj (fun i => t (12 + i)) ((l : Int) - 13)).status
      · split
        · dsimp only
          split
          · exact setArea_status ..
          · exact setArea_status ..
        · rfl

theorem propDesc_status (d : Dev) (obj pid index : Nat) (sb : Buf) :
    (propDesc d obj pid index sb).1.status = d.status := by
  unfold propDesc
  dsimp only
  by_cases h : pid = 0 ∧ ¬ (obj < 6 ∧ index ≤ (propTab obj).length)
  · rw [if_pos h]
  · rw [if_neg h]
    cases (if pid = 0 then (propTab obj)[index]? else propertyDef obj pid) with
    | none => rfl
    | some p => rfl

theorem memResponse_status (d : Dev) (a : Word) (n : Nat) (sb : Buf) :
    (memResponse W d a n sb).1.status = d.status := by
  unfold memResponse memReadPDU
  dsimp only
  have h := memOp_reads (W := W) d a.toNat sb 10 n
  repeat' split
  all_goals first | rfl | (show (memOp W true d a.toNat sb 10 n).1.status = _; rw [h])

theorem defaultApci_status (d : Dev) (cmd : Word) (t sb : Buf) (hc : cmd ≠ 0x280#16) :
    (defaultApci W d cmd t sb).1.status = d.status := by
  unfold defaultApci
  by_cases h1 : cmd = 0x180#16
  · rw [if_pos h1]
  rw [if_neg h1]
  by_cases h2 : cmd = 0x200#16 ∨ cmd = 0x280#16
  · rw [if_pos h2]
    unfold memService
    dsimp only
    rw [if_neg hc]
    exact memResponse_status W ..
  rw [if_neg h2]
  by_cases h3 : cmd = 0x300#16
  · rw [if_pos h3]
    split <;> rfl
  rw [if_neg h3]
  by_cases h4 : cmd = 0x381#16
  · rw [if_pos h4]
    unfold masterReset
    dsimp only
    repeat' split
    all_goals rfl
  rw [if_neg h4]
  by_cases h5 : cmd = 0x3d1#16
  · rw [if_pos h5]
  rw [if_neg h5]
  by_cases h6 : cmd = 0x380#16
  · rw [if_pos h6]
  rw [if_neg h6]

theorem processApci_status (d : Dev) (t : Buf) (l : Nat) (sb : Buf) (hc : apciCommand t ≠ 0x280#16) :
    (processApci W d t l sb).1.status = d.status := by
  unfold processApci
  split
  · exact defaultApci_status W _ _ _ _ hc
  · unfold bcu2Apci
    split
    · dsimp only
      split
      · exact propRead_status W ..
      · exact propWrite_status W ..
    · split
      · exact propDesc_status ..
      · exact defaultApci_status W _ _ _ _ hc

/-- Only a memory write changes the status byte. -/
theorem step_status (hg : ∀ d t l, (group d t l).1.status = d.status) (s : TL4.State Dev)
    (op : TL4.Op) (h : ¬ MemoryWrite ((TL4.step (app W group) s op).2.map .bus)) :
    (TL4.step (app W group) s op).1.app.status = s.app.status := by
  cases hx : TL4.exec (app W group) s op with
  | none =>
    have : TL4.step (app W group) s op = (s, []) := by unfold TL4.step; rw [hx]; rfl
    rw [this]
  | some r =>
    have hst : TL4.step (app W group) s op = r := by unfold TL4.step; rw [hx]; rfl
    rw [hst] at h ⊢
    obtain ⟨s', o⟩ := r
    cases TL4.exec_trans _ s s' op o hx with
    | rxBroadcast t len hd => exact broadcast_status W _ _
    | rxBroadcastSend t len f hd => exact broadcast_status W _ _
    | rxGroup t len hd hgr => exact hg _ _ _
    | rxGroupSend t len f hd hgr => exact hg _ _ _
    | individual t len hu =>
      exact processApci_status W _ t len _ (fun hc => h ⟨t, len, hc, Or.inr (by simp)⟩)
    | individualSend t len r hu hc htx hr hs =>
      subst hr
      exact processApci_status W _ t len _ (fun hc => h ⟨t, len, hc, Or.inr (by simp)⟩)
    | dataAccepted t len hu =>
      have hc : apciCommand t ≠ 0x280#16 := fun hc => h ⟨t, len, hc, Or.inl (by simp)⟩
      dsimp only
      unfold TL4.a02Process
      dsimp only
      repeat' split
      all_goals exact processApci_status W _ t len _ hc
    | ackOk t len =>
      have : (TL4.a08 s).app = s.app := by
        unfold TL4.a08
        dsimp only
        repeat' split
        all_goals rfl
      show (TL4.a08 s).app.status = _
      rw [this]
    | _ => rfl

/-- What a part of the loop other than the button leaves alone. -/
structure Same (m : Main) (r : MRes) : Prop where
  clock : r.1.tl.clock = m.tl.clock
  deb : r.1.deb = m.deb
  led : r.1.led = m.led
  status : ¬ MemoryWrite r.2 → r.1.tl.app.status = m.tl.app.status

/-- A part of the loop after the button. -/
structure After (m : Main) (r : MRes) : Prop where
  clock : r.1.tl.clock = m.tl.clock
  deb : r.1.deb = m.deb
  led : r.1.led = m.led
  status : r.1.tl.app.status = m.tl.app.status

theorem After.refl (m : Main) : After m (m, []) := ⟨rfl, rfl, rfl, rfl⟩

theorem After.then {m : Main} {r : MRes} {f : Main → MRes} (h : After m r) (k : After r.1 (f r.1)) :
    After m (r.then f) :=
  ⟨k.clock.trans h.clock, k.deb.trans h.deb, k.led.trans h.led, k.status.trans h.status⟩

theorem After.same {m : Main} {r : MRes} (h : After m r) : Same m r :=
  ⟨h.clock, h.deb, h.led, fun _ => h.status⟩

theorem memWrite_left {a b : List MainOut} (h : MemoryWrite a) : MemoryWrite (a ++ b) := by
  obtain ⟨t, l, h1, h2⟩ := h
  exact ⟨t, l, h1, h2.imp (List.mem_append_left _) (List.mem_append_left _)⟩

theorem memWrite_right {a b : List MainOut} (h : MemoryWrite b) : MemoryWrite (a ++ b) := by
  obtain ⟨t, l, h1, h2⟩ := h
  exact ⟨t, l, h1, h2.imp (List.mem_append_right _) (List.mem_append_right _)⟩

theorem Same.then {m : Main} {r : MRes} {f : Main → MRes} (h : Same m r) (k : Same r.1 (f r.1)) :
    Same m (r.then f) :=
  ⟨k.clock.trans h.clock, k.deb.trans h.deb, k.led.trans h.led, fun hn =>
    (k.status fun hc => hn (memWrite_right hc)).trans (h.status fun hc => hn (memWrite_left hc))⟩

theorem tlOp_same (hg : ∀ d t l, (group d t l).1.status = d.status) (m : Main) (op : TL4.Op) :
    (tlOp W group m op).1.tl.clock = m.tl.clock + (match op with | .advance ms => ms | _ => 0) ∧
    (tlOp W group m op).1.deb = m.deb ∧ (tlOp W group m op).1.led = m.led ∧
    (tlOp W group m op).1.off = m.off ∧
    (¬ MemoryWrite (tlOp W group m op).2 → (tlOp W group m op).1.tl.app.status = m.tl.app.status) := by
  unfold tlOp
  dsimp only
  generalize hs0 : ({ m.tl with app := { m.tl.app with restart := .none } } : TL4.State Dev) = s0
  have hr0 : s0.app.status = m.tl.app.status := by rw [← hs0]
  have hc0 : s0.clock = m.tl.clock := by rw [← hs0]
  have hst := step_status W group hg s0 op
  have hck := step_clock (app W group) s0 op
  have key : (sysStep W group s0 (.tl op)).2 = (TL4.step (app W group) s0 op).2 ∧
      (sysStep W group s0 (.tl op)).1.app.status = (TL4.step (app W group) s0 op).1.app.status ∧
      (sysStep W group s0 (.tl op)).1.clock = (TL4.step (app W group) s0 op).1.clock := by
    unfold sysStep
    dsimp only
    split
    · exact ⟨rfl, setOwn_status W _ _, rfl⟩
    · exact ⟨rfl, rfl, rfl⟩
  obtain ⟨k1, k2, k3⟩ := key
  generalize sysStep W group s0 (.tl op) = r at k1 k2 k3 ⊢
  rw [← k1, ← k2, hr0] at hst
  rw [← k3, hc0] at hck
  refine ⟨?_, ?_, ?_, ?_, fun hn => ?_⟩
  · split <;> exact hck
  · split <;> rfl
  · split <;> rfl
  · split <;> rfl
  · split <;> exact hst hn

theorem noWrite_step (s : TL4.State Dev) (op : TL4.Op) (h : ∀ t l, op ≠ .rx t l) :
    ¬ MemoryWrite ((TL4.step (app W group) s op).2.map .bus) := by
  suffices hh : ∀ x ∈ (TL4.step (app W group) s op).2, (∀ t l, x ≠ .apciConnected t l) ∧
      (∀ t l, x ≠ .apciIndividual t l) by
    rintro ⟨t, l, -, hm | hm⟩
    · obtain ⟨y, hy, e⟩ := List.mem_map.mp hm
      cases e
      exact (hh _ hy).1 t l rfl
    · obtain ⟨y, hy, e⟩ := List.mem_map.mp hm
      cases e
      exact (hh _ hy).2 t l rfl
  cases hx : TL4.exec (app W group) s op with
  | none =>
    have : TL4.step (app W group) s op = (s, []) := by unfold TL4.step; rw [hx]; rfl
    rw [this]
    simp
  | some r =>
    have hst : TL4.step (app W group) s op = r := by unfold TL4.step; rw [hx]; rfl
    rw [hst]
    obtain ⟨s', o⟩ := r
    cases TL4.exec_trans _ s s' op o hx with
    | individual t len hu => exact absurd rfl (h t len)
    | individualSend t len r hu hc htx hr hs => exact absurd rfl (h t len)
    | dataAccepted t len hu => exact absurd rfl (h t len)
    | _ => simp [TL4.ctrlOut, TL4.dataOut]

theorem tlOp_after (hg : ∀ d t l, (group d t l).1.status = d.status) (m : Main) (op : TL4.Op)
    (h1 : ∀ t l, op ≠ .rx t l) (h2 : ∀ ms, op ≠ .advance ms) : After m (tlOp W group m op) := by
  obtain ⟨a1, a2, a3, -, a4⟩ := tlOp_same W group hg m op
  have hn : ¬ MemoryWrite (tlOp W group m op).2 := by
    have e : (tlOp W group m op).2 = (sysStep W group { m.tl with app := { m.tl.app with restart := .none } }
        (.tl op)).2.map .bus := rfl
    rw [e]
    have e2 : ∀ s, (sysStep W group s (.tl op)).2 = (TL4.step (app W group) s op).2 := by
      intro s; unfold sysStep; dsimp only; split <;> rfl
    rw [e2]
    exact noWrite_step W group _ op h1
  refine ⟨?_, a2, a3, a4 hn⟩
  cases op <;> first | exact a1 | exact absurd rfl (h2 _)

theorem irq_after (hg : ∀ d t l, (group d t l).1.status = d.status) (m : Main) (x : Option Bool) :
    After m (irq W group x m) := by
  unfold irq
  cases x with
  | none => exact After.refl m
  | some ok => exact tlOp_after W group hg m _ (fun _ _ h => by cases h) (fun _ h => by cases h)

theorem receive_same (hg : ∀ d t l, (group d t l).1.status = d.status) (m : Main)
    (rx : Option (Buf × Nat)) (ack : Bool) : Same m (receive W group rx ack m) := by
  unfold receive
  cases rx with
  | none => exact (After.refl m).same
  | some x =>
    dsimp only
    split
    · obtain ⟨a1, a2, a3, -, a4⟩ := tlOp_same W group hg m (.rx x.1 x.2)
      exact ⟨a1, a2, a3, a4⟩
    · exact (After.refl m).same

theorem flush_after (m : Main) : After m (flush W m) := by
  unfold flush
  dsimp only
  split <;> exact ⟨rfl, rfl, rfl, rfl⟩

theorem poll_after (hg : ∀ d t l, (group d t l).1.status = d.status) (m : Main) (ack : Bool) :
    After m (pollRestart W group ack m) := by
  unfold pollRestart
  split
  · exact After.refl m
  split
  · exact After.refl m
  split
  · have h := tlOp_after W group hg m .disconnect (fun _ _ h => by cases h) (fun _ h => by cases h)
    exact h.then ⟨rfl, rfl, rfl, rfl⟩
  · dsimp only
    split
    · unfold softReset
      dsimp only
      have h := flush_after W { m with timeout := (m.timeout.expired m.tl.clock).1 }
      exact ⟨h.1, h.2, h.3, h.4⟩
    · exact ⟨rfl, rfl, rfl, rfl⟩

theorem tail_after (hg : ∀ d t l, (group d t l).1.status = d.status) (m : Main) (i : In) :
    After m (loopTail W group i m) := by
  unfold loopTail
  split
  · exact After.refl m
  · have hf : ∀ m : Main, After m
        (if m.tl.app.eeModified && decide (m.tl.phase = .closed) then flush W m else (m, [])) := by
      intro m
      split
      · exact flush_after W _
      · exact After.refl _
    dsimp only
    refine After.then ?_ (hf _)
    cases i.grp with
    | none => exact After.refl m
    | some f =>
      dsimp only
      split
      · exact tlOp_after W group hg _ _ (fun _ _ h => by cases h) (fun _ h => by cases h)
      · exact After.refl m

/-- The loop up to the button. -/
def beforeButton (i : In) (m : Main) : MRes :=
  (((irq W group i.irq1 m).then (tlOp W group · .loop)).then (irq W group i.irq2)).then
    (receive W group i.rx i.ack1)

theorem before_same (hg : ∀ d t l, (group d t l).1.status = d.status) (m : Main) (i : In) :
    Same m (beforeButton W group i m) :=
  ((((irq_after W group hg m i.irq1).then
    (tlOp_after W group hg _ .loop (fun _ _ h => by cases h) (fun _ h => by cases h))).then
    (irq_after W group hg _ i.irq2)).same).then (receive_same W group hg _ i.rx i.ack1)

/-- One loop: the button is polled once. -/
theorem loop_button (hg : ∀ d t l, (group d t l).1.status = d.status) (m : Main) (i : In)
    (hr : Running m) :
    let p := (beforeButton W group i m).1
    let r := mainStep W group m (.loop i)
    r.1.tl.clock = m.tl.clock ∧ r.1.deb = m.deb.debounce m.tl.clock i.pin 50#32 ∧
    r.1.tl.app.status = (if (m.deb.debounce m.tl.clock i.pin 50#32).valid = 0 ∧ m.deb.valid ≠ 0 then
      p.tl.app.status ^^^ 0x81#8 else p.tl.app.status) ∧
    r.1.led = !r.1.tl.app.status.getLsbD 0 ∧
    (¬ MemoryWrite r.2 → p.tl.app.status = m.tl.app.status) := by
  dsimp only
  have hs : mainStep W group m (.loop i) = (((((beforeButton W group i m).then (pollButton i.pin)).then
      (irq W group i.irq3)).then (pollRestart W group i.ack2)).then (irq W group i.irq4)).then
      (loopTail W group i) := by
    unfold mainStep
    rw [hr.1]
    show mainLoop W group i m = _
    unfold mainLoop
    rw [hr.1, hr.2]
    rfl
  rw [hs]
  have hb := before_same W group hg m i
  generalize beforeButton W group i m = q at hb ⊢
  have ha : After (pollButton i.pin q.1).1 (((((pollButton i.pin q.1).then (irq W group i.irq3)).then
      (pollRestart W group i.ack2)).then (irq W group i.irq4)).then (loopTail W group i)) :=
    After.then (After.then (After.then (After.then ⟨rfl, rfl, rfl, rfl⟩
      (irq_after W group hg _ i.irq3)) (poll_after W group hg _ i.ack2)) (irq_after W group hg _ i.irq4))
      (tail_after W group hg _ i)
  have e1 : (((((q.then (pollButton i.pin)).then (irq W group i.irq3)).then
      (pollRestart W group i.ack2)).then (irq W group i.irq4)).then (loopTail W group i)).1 =
      (((((pollButton i.pin q.1).then (irq W group i.irq3)).then
      (pollRestart W group i.ack2)).then (irq W group i.irq4)).then (loopTail W group i)).1 := rfl
  have e2 : ∃ z, (((((q.then (pollButton i.pin)).then (irq W group i.irq3)).then
      (pollRestart W group i.ack2)).then (irq W group i.irq4)).then (loopTail W group i)).2 = q.2 ++ z := by
    have hp : ∀ (a b : List MainOut), (∃ z, a = q.2 ++ z) → ∃ z, a ++ b = q.2 ++ z := by
      rintro a b ⟨z, rfl⟩
      exact ⟨z ++ b, List.append_assoc ..⟩
    exact hp _ _ (hp _ _ (hp _ _ (hp _ _ ⟨_, rfl⟩)))
  obtain ⟨z, e2⟩ := e2
  rw [e1, e2]
  generalize ((((pollButton i.pin q.1).then (irq W group i.irq3)).then
      (pollRestart W group i.ack2)).then (irq W group i.irq4)).then (loopTail W group i) = r at ha ⊢
  refine ⟨ha.clock.trans hb.clock, ?_, ?_, ?_, fun hn => hb.status fun hc => hn (memWrite_left hc)⟩
  · rw [ha.deb, ← hb.clock, ← hb.deb]; rfl
  · rw [ha.status, ← hb.clock, ← hb.deb]
    unfold pollButton
    dsimp only
    split <;> rfl
  · rw [ha.led, ha.status]; rfl

theorem step_other (hg : ∀ d t l, (group d t l).1.status = d.status) (m : Main) (e : MainEv)
    (h : ∀ i, e ≠ .loop i) :
    m.tl.clock ≤ (mainStep W group m e).1.tl.clock ∧ (mainStep W group m e).1.deb = m.deb := by
  unfold mainStep
  split
  · exact ⟨Nat.le_refl _, rfl⟩
  · cases e with
    | loop i => exact absurd rfl (h i)
    | setProgMode on => exact ⟨Nat.le_refl _, rfl⟩
    | advance ms => obtain ⟨a1, a2, -⟩ := tlOp_same W group hg m (.advance ms); exact ⟨Nat.le.intro a1.symm, a2⟩
    | txDone ok => obtain ⟨a1, a2, -⟩ := tlOp_same W group hg m (.txDone ok); exact ⟨Nat.le.intro a1.symm, a2⟩
    | userSend f => obtain ⟨a1, a2, -⟩ := tlOp_same W group hg m (.userSend f); exact ⟨Nat.le.intro a1.symm, a2⟩
    | setOwnAddress a =>
      obtain ⟨a1, a2, -⟩ := tlOp_same W group hg m (.setOwnAddress a); exact ⟨Nat.le.intro a1.symm, a2⟩

theorem loop_not_running (m : Main) (i : In) (h : ¬ Running m) : mainStep W group m (.loop i) = (m, []) := by
  unfold mainStep
  split
  · rfl
  · rename_i ho
    show mainLoop W group i m = _
    unfold mainLoop
    rw [if_pos]
    have h1 : m.off = none := by cases hm : m.off with
      | none => rfl
      | some x => rw [hm] at ho; exact absurd rfl ho
    have h2 : m.tl.enabled = false := by
      cases he : m.tl.enabled with
      | false => rfl
      | true => exact absurd ⟨h1, he⟩ h
    rw [h1, h2]; rfl

/-- The debouncer sees exactly these samples, and their times do not decrease. -/
theorem run_samples (hg : ∀ d t l, (group d t l).1.status = d.status) (es : List MainEv) : ∀ m : Main,
    (mainRun W group m es).1.deb = m.deb.run 50#32 (samples W group m es) ∧
    m.tl.clock ≤ (mainRun W group m es).1.tl.clock ∧
    (∀ s ∈ samples W group m es, m.tl.clock ≤ s.1 ∧ s.1 ≤ (mainRun W group m es).1.tl.clock) ∧
    Time.Ordered (samples W group m es) := by
  induction es with
  | nil =>
    intro m
    exact ⟨rfl, Nat.le_refl _, by simp [samples], by simp [samples, Time.Ordered]⟩
  | cons e es ih =>
    intro m
    obtain ⟨i1, i2, i3, i4⟩ := ih (mainStep W group m e).1
    rw [run_cons]
    show (mainRun W group (mainStep W group m e).1 es).1.deb = _ ∧
      _ ≤ (mainRun W group (mainStep W group m e).1 es).1.tl.clock ∧
      (∀ s : Nat × Int, s ∈ _ → _ ∧ s.1 ≤ (mainRun W group (mainStep W group m e).1 es).1.tl.clock) ∧ _
    by_cases hl : ∃ i, e = .loop i ∧ Running m
    · obtain ⟨i, rfl, hr⟩ := hl
      obtain ⟨b1, b2, -⟩ := loop_button W group hg m i hr
      have es' : samples W group m (.loop i :: es) =
          (m.tl.clock, i.pin) :: samples W group (mainStep W group m (.loop i)).1 es := by
        show (if Running m then [(m.tl.clock, i.pin)] else []) ++ _ = _
        rw [if_pos hr]; rfl
      rw [es']
      rw [b1] at i2 i3
      refine ⟨?_, i2, ?_, ?_⟩
      · rw [i1, b2]; rfl
      · intro s hs
        rcases List.mem_cons.mp hs with rfl | hs
        · exact ⟨Nat.le_refl _, i2⟩
        · exact i3 s hs
      · unfold Time.Ordered at i4 ⊢
        rw [List.map_cons, List.pairwise_cons]
        refine ⟨?_, i4⟩
        intro x hx
        obtain ⟨s, hs, rfl⟩ := List.mem_map.mp hx
        exact (i3 s hs).1
    · have es' : samples W group m (e :: es) = samples W group (mainStep W group m e).1 es := by
        show (match e with | .loop i => if Running m then [(m.tl.clock, i.pin)] else [] | _ => []) ++ _ = _
        cases e with
        | loop i =>
          show (if Running m then [(m.tl.clock, i.pin)] else []) ++ _ = _
          rw [if_neg (fun hr => hl ⟨i, rfl, hr⟩)]; rfl
        | _ => rfl
      have hm : m.tl.clock ≤ (mainStep W group m e).1.tl.clock ∧ (mainStep W group m e).1.deb = m.deb := by
        by_cases hi : ∃ i, e = .loop i
        · obtain ⟨i, rfl⟩ := hi
          rw [loop_not_running W group m i (fun hr => hl ⟨i, rfl, hr⟩)]
          exact ⟨Nat.le_refl _, rfl⟩
        · exact step_other W group hg m e (fun i hc => hi ⟨i, hc⟩)
      rw [es']
      refine ⟨by rw [i1, hm.2], Nat.le_trans hm.1 i2, ?_, i4⟩
      intro s hs
      exact ⟨Nat.le_trans hm.1 (i3 s hs).1, (i3 s hs).2⟩

/-! ## The theorems -/

/-- **C63.** The button toggles the programming mode exactly at a press: for every device and every
history `es` since it was started, a loop in which no memory write is executed switches the programming
mode (keeping all other status bits and the parity of the status) if its sample of the programming pin
completes a press, and leaves the status byte alone if not; the LED shows the programming mode. -/
theorem C63_button_toggles (hg : ∀ d t l, (group d t l).1.status = d.status) (own : Word)
    (clock : Nat) (d : Dev) (deb : Time.Debouncer) (flash : Nat → Byte) (led : Bool)
    (es : List MainEv) (i : In) (m0 m : Main)
    (h0 : m0 = Main.begin (TL4.init own clock d) deb flash led)
    (hm : m = (mainRun W group m0 es).1) (hr : Running m) :
    let m' := (mainStep W group m (.loop i)).1
    (¬ MemoryWrite (mainStep W group m (.loop i)).2 →
      (Press (deb.init 1) (samples W group m0 es) (m.tl.clock, i.pin) →
        Toggled m.tl.app.status m'.tl.app.status) ∧
      (¬ Press (deb.init 1) (samples W group m0 es) (m.tl.clock, i.pin) →
        m'.tl.app.status = m.tl.app.status)) ∧
    m'.led = !programmingMode m'.tl.app := by
  obtain ⟨b1, b2, b3, b4, b5⟩ := loop_button W group hg m i hr
  have hd : m.deb = (deb.init 1).run 50#32 (samples W group m0 es) := by
    rw [hm, (run_samples W group hg es m0).1, h0]; rfl
  have hd' : m.deb.debounce m.tl.clock i.pin 50#32 =
      (deb.init 1).run 50#32 (samples W group m0 es ++ [(m.tl.clock, i.pin)]) := by
    rw [Time.run_append, ← hd]; rfl
  have hp : ((m.deb.debounce m.tl.clock i.pin 50#32).valid = 0 ∧ m.deb.valid ≠ 0) ↔
      Press (deb.init 1) (samples W group m0 es) (m.tl.clock, i.pin) := by
    unfold Press level
    rw [hd', ← hd]
    exact And.comm
  refine ⟨fun hn => ⟨fun h => ?_, fun h => ?_⟩, b4⟩
  · rw [b3, if_pos (hp.mpr h), b5 hn]; exact toggled _
  · rw [b3, if_neg (fun hc => h (hp.mp hc)), b5 hn]

/-- **C63.** Nothing else changes the status byte: for every device and every history of it, an event that
changes it is a call of `setProgrammingMode` with the other mode, or a loop that executes a memory write
or whose sample of the programming pin completes a press. -/
theorem C63_mode_changes_only (hg : ∀ d t l, (group d t l).1.status = d.status) (own : Word)
    (clock : Nat) (d : Dev) (deb : Time.Debouncer) (flash : Nat → Byte) (led : Bool)
    (es : List MainEv) (e : MainEv) (m0 m : Main)
    (h0 : m0 = Main.begin (TL4.init own clock d) deb flash led)
    (hm : m = (mainRun W group m0 es).1)
    (h : (mainStep W group m e).1.tl.app.status ≠ m.tl.app.status) :
    (∃ on, e = .setProgMode on ∧ on ≠ programmingMode m.tl.app) ∨
    (∃ i, e = .loop i ∧ Running m ∧
      (MemoryWrite (mainStep W group m e).2 ∨
        Press (deb.init 1) (samples W group m0 es) (m.tl.clock, i.pin))) := by
  cases e with
  | loop i =>
    right
    by_cases hr : Running m
    · refine ⟨i, rfl, hr, ?_⟩
      by_cases hn : MemoryWrite (mainStep W group m (.loop i)).2
      · exact Or.inl hn
      · right
        refine Classical.byContradiction fun hp => h ?_
        exact ((C63_button_toggles W group hg own clock d deb flash led es i m0 m h0 hm hr).1 hn).2 hp
    · rw [loop_not_running W group m i hr] at h; exact absurd rfl h
  | setProgMode on =>
    left
    refine ⟨on, rfl, fun hc => h ?_⟩
    unfold mainStep
    split
    · rfl
    · show (if on ≠ programmingMode m.tl.app then toggleProg m.tl.app else m.tl.app).status = _
      rw [if_neg (fun h => h hc)]
  | _ =>
    exfalso
    apply h
    unfold mainStep
    split
    · rfl
    · have hn : ∀ op : TL4.Op, (∀ t l, op ≠ .rx t l) →
          (tlOp W group m op).1.tl.app.status = m.tl.app.status := by
        intro op ho
        refine (tlOp_same W group hg m op).2.2.2.2 ?_
        have e : (tlOp W group m op).2 = (sysStep W group
            { m.tl with app := { m.tl.app with restart := .none } } (.tl op)).2.map .bus := rfl
        rw [e]
        have e2 : ∀ s, (sysStep W group s (.tl op)).2 = (TL4.step (app W group) s op).2 := by
          intro s; unfold sysStep; dsimp only; split <;> rfl
        rw [e2]
        exact noWrite_step W group _ op ho
      exact hn _ (fun _ _ h => by cases h)

/-- **C63.** `setProgrammingMode` sets the mode it is given, whatever it was, and the LED; it leaves the
other status bits and the parity alone. -/
theorem C63_setProgrammingMode (m : Main) (on : Bool) (h : m.off = none) :
    let m' := (mainStep W group m (.setProgMode on)).1
    programmingMode m'.tl.app = on ∧ m'.led = !on ∧
    (m'.tl.app.status = m.tl.app.status ∨ Toggled m.tl.app.status m'.tl.app.status) := by
  have e : mainStep W group m (.setProgMode on) =
      ({ m with
          tl := { m.tl with app := if on ≠ programmingMode m.tl.app then toggleProg m.tl.app else m.tl.app }
          led := !programmingMode (if on ≠ programmingMode m.tl.app then toggleProg m.tl.app else m.tl.app) },
        []) := by
    unfold mainStep
    rw [h]; rfl
  dsimp only
  rw [e]
  dsimp only
  by_cases hc : on = programmingMode m.tl.app
  · rw [if_neg (fun h => h hc)]
    exact ⟨hc.symm, by rw [hc], Or.inl rfl⟩
  · rw [if_pos hc]
    have ht := toggled m.tl.app.status
    have hp : programmingMode (toggleProg m.tl.app) = on := by
      have : programmingMode (toggleProg m.tl.app) = !programmingMode m.tl.app := ht.1
      rw [this]
      cases on <;> cases hh : programmingMode m.tl.app <;> simp_all
    exact ⟨hp, by rw [hp], Or.inr ht⟩

/-- The samples of a started device are in order. -/
theorem samples_ordered (hg : ∀ d t l, (group d t l).1.status = d.status) (m : Main) (es : List MainEv)
    (v : Int) :
    Time.Ordered (samples W group m es ++ [((mainRun W group m es).1.tl.clock, v)]) := by
  obtain ⟨-, -, h3, h4⟩ := run_samples W group hg es m
  unfold Time.Ordered at h4 ⊢
  rw [List.map_append, List.pairwise_append]
  refine ⟨h4, by simp, ?_⟩
  intro x hx y hy
  obtain ⟨s, hs, rfl⟩ := List.mem_map.mp hx
  simp only [List.map_cons, List.map_nil, List.mem_singleton] at hy
  rw [hy]
  exact (h3 s hs).2

/-- **C63.** Every press is real: for every history, if a loop completes a press then the pin was low in
this loop and in all loops of (at least) the last 50 ms. -/
theorem C63_press_is_stable (hg : ∀ d t l, (group d t l).1.status = d.status) (own : Word)
    (clock : Nat) (d : Dev) (deb : Time.Debouncer) (flash : Nat → Byte) (led : Bool)
    (es : List MainEv) (pin : Int) (m0 m : Main)
    (_h0 : m0 = Main.begin (TL4.init own clock d) deb flash led)
    (hm : m = (mainRun W group m0 es).1)
    (hp : Press (deb.init 1) (samples W group m0 es) (m.tl.clock, pin)) :
    pin = 0 ∧ ∃ since, since + 50 ≤ m.tl.clock ∧
      Time.StableSince (samples W group m0 es ++ [(m.tl.clock, pin)]) since 0 := by
  have ho := samples_ordered W group hg m0 es pin
  rw [← hm] at ho
  have h := Time.C33_only_stable_values (deb.init 1) rfl 50#32 (by decide) (samples W group m0 es)
    m.tl.clock pin ho (fun hc => hp.1 (by
      show ((deb.init 1).run 50#32 (samples W group m0 es)).valid = 0
      rw [← hc]; exact hp.2))
  have e : pin = 0 := h.1.symm.trans hp.2
  subst e
  obtain ⟨-, since, h1, h2⟩ := h
  exact ⟨rfl, since, h1, h2⟩

end

/-- A change of the debounced level clears the pending change. -/
theorem change_clears (s0 : Time.Debouncer) (s : List (Nat × Int)) (x : Nat × Int)
    (h : level s0 (s ++ [x]) ≠ level s0 s) : (s0.run 50#32 (s ++ [x])).time = 0#32 := by
  unfold level at h
  rw [Time.run_append] at h ⊢
  change (Time.Debouncer.debounce _ x.1 x.2 50#32).valid ≠ _ at h
  show (Time.Debouncer.debounce _ x.1 x.2 50#32).time = _
  unfold Time.Debouncer.debounce at h ⊢
  dsimp only at h ⊢
  split at h
  · exact absurd rfl h
  · rename_i h1
    split at h
    · rename_i h2; rw [if_neg h1, if_pos h2]
    · exact absurd rfl h

/-- A level that falls after these samples, having been low before them, has risen in between. -/
theorem rises (s0 : Time.Debouncer) : ∀ s : List (Nat × Int), level s0 [] = 0 → level s0 s ≠ 0 →
    ∃ p x q, s = p ++ x :: q ∧ level s0 p = 0 ∧ level s0 (p ++ [x]) ≠ 0 := by
  intro s
  revert s
  refine Time.rev_ind ?_ ?_
  · intro h1 h2; exact absurd h1 h2
  · intro xs x ih h1 h2
    by_cases hx : level s0 xs = 0
    · exact ⟨xs, x, [], rfl, hx, h2⟩
    · obtain ⟨p, y, q, e, h3, h4⟩ := ih h1 hx
      exact ⟨p, y, q ++ [x], by rw [e]; simp, h3, h4⟩

/-- **C63.** One press toggles once: between two presses, however the contact bounces and whenever the
loops run, the pin was high in all samples of (at least) 50 ms. -/
theorem C63_released_between (s0 : Time.Debouncer) (s1 s2 : List (Nat × Int)) (x1 x2 : Nat × Int)
    (ho : Time.Ordered (s1 ++ x1 :: s2)) (h1 : Press s0 s1 x1) (h2 : Press s0 (s1 ++ x1 :: s2) x2) :
    ∃ p now v q since, s2 = p ++ (now, v) :: q ∧ v ≠ 0 ∧ since + 50 ≤ now ∧
      Time.StableSince (p ++ [(now, v)]) since v := by
  have ea : ∀ s, s0.run 50#32 (s1 ++ x1 :: s) = (s0.run 50#32 (s1 ++ [x1])).run 50#32 s := by
    intro s
    rw [show s1 ++ x1 :: s = (s1 ++ [x1]) ++ s by simp, Time.run_append]
  have hc := change_clears s0 s1 x1 (by rw [h1.2]; exact fun h => h1.1 h.symm)
  generalize hs : s0.run 50#32 (s1 ++ [x1]) = d1 at ea hc
  have e0 : level d1 [] = 0 := by
    have := h1.2
    unfold level at this ⊢
    rw [hs] at this
    exact this
  have e2 : level d1 s2 ≠ 0 := by
    have := h2.1
    unfold level at this ⊢
    rw [ea] at this
    exact this
  obtain ⟨p, ⟨now, v⟩, q, e, h3, h4⟩ := rises d1 s2 e0 e2
  have hop : Time.Ordered (p ++ [(now, v)]) := by
    unfold Time.Ordered at ho ⊢
    rw [e, show s1 ++ x1 :: (p ++ (now, v) :: q) = ((s1 ++ [x1]) ++ (p ++ [(now, v)])) ++ q by simp,
      List.map_append, List.pairwise_append] at ho
    have := ho.1
    rw [List.map_append, List.pairwise_append] at this
    exact this.2.1
  obtain ⟨k1, since, k2, k3⟩ := Time.C33_only_stable_values d1 hc 50#32 (by decide) p now v hop (by
    intro hcc
    exact h4 (by unfold level at h3 ⊢; rw [hcc]; exact h3))
  refine ⟨p, now, v, q, since, e, ?_, k2, k3⟩
  intro hv
  apply h4
  show (d1.run 50#32 (p ++ [(now, v)])).valid = 0
  rw [k1, hv]

/-- **C63** (partial; missing: a press whose first low sample is taken while the millisecond counter shows
0, see C33, and loops more than 2^31 ms apart).  A press is noticed: if the debounced level is high, the
pin changes to low at a sample at `since` and is low in all samples of the following 50 ms, then the first
sample after these 50 ms completes a press. -/
theorem C63_press_noticed_partial (s0 : Time.Debouncer) (s : List (Nat × Int)) (since now : Nat)
    (early : List (Nat × Int)) (hh : level s0 s ≠ 0) (hz : since % 2 ^ 32 ≠ 0)
    (hl : (s0.run 50#32 s).last ≠ 0)
    (he : ∀ x ∈ early, x.2 = 0 ∧ since ≤ x.1 ∧ x.1 < since + 50)
    (h1 : since + 50 ≤ now) (h2 : now < since + 50 + 2 ^ 31) :
    Press s0 (s ++ (since, 0) :: early) (now, 0) := by
  have hk : ∀ e : List (Nat × Int), (∀ x ∈ e, x.2 = 0 ∧ since ≤ x.1 ∧ x.1 < since + 50) →
      level s0 (s ++ (since, 0) :: e) = level s0 s := by
    intro e he
    unfold level
    rw [Time.run_append]
    show (((s0.run 50#32 s).debounce since 0 50#32).run 50#32 e).valid = _
    have hm : Time.millis since ≠ 0#32 := by
      intro h
      have := congrArg BitVec.toNat h
      unfold Time.millis at this
      simp only [BitVec.toNat_ofNat] at this
      omega
    have e1 : (s0.run 50#32 s).debounce since 0 50#32 =
        { s0.run 50#32 s with time := Time.millis since, last := 0 } := by
      unfold Time.Debouncer.debounce
      rw [if_pos hl]
    rw [e1, Time.run_pending (v := 0) (since := since) rfl rfl hm 50#32 (by decide) e he]
  refine ⟨by rw [hk early he]; exact hh, ?_⟩
  have := Time.C33_constant_input_reported_partial (s0.run 50#32 s) 50#32 (by decide) since 0 hz hl early he
    now h1 h2
  unfold level
  rw [show (s ++ (since, 0) :: early) ++ [(now, 0)] = s ++ ((since, 0) :: early ++ [(now, 0)]) by simp,
    Time.run_append]
  exact this

/-! ## The hypotheses are met -/

/-- Loops that find this level of the pin, `ms` apart. -/
def exPin (v : Int) (ms : Nat) : List MainEv := [.loop { rx := none, pin := v, grp := none }, .advance ms]

/-- Started at 5 ms; a press that bounces. -/
def ex63 : Main := Main.begin (TL4.init 0x1105#16 5 exDev) ⟨0#32, 0, 1⟩ (fun _ => 0xff#8) true
def exPress : List MainEv := exPin 1 10 ++ exPin 0 3 ++ exPin 1 4 ++ exPin 0 30 ++ exPin 0 20

example : samples exWorld exGroup ex63 exPress = [(5, 1), (15, 0), (18, 1), (22, 0), (52, 0)] ∧
    Press (Time.Debouncer.init ⟨0#32, 0, 1⟩ 1) (samples exWorld exGroup ex63 exPress) (72, 0) ∧
    (mainRun exWorld exGroup ex63 exPress).1.tl.clock = 72 ∧
    Running (mainRun exWorld exGroup ex63 exPress).1 := by decide +kernel

/-- The press switches programming mode on, releasing does nothing, the next press switches it off. -/
example :
    programmingMode (mainRun exWorld exGroup ex63 exPress).1.tl.app = false ∧
    programmingMode (mainRun exWorld exGroup ex63 (exPress ++ exPin 0 5)).1.tl.app = true ∧
    programmingMode (mainRun exWorld exGroup ex63
      (exPress ++ exPin 0 5 ++ exPin 1 60 ++ exPin 1 10 ++ exPin 0 50)).1.tl.app = true ∧
    programmingMode (mainRun exWorld exGroup ex63
      (exPress ++ exPin 0 5 ++ exPin 1 60 ++ exPin 1 10 ++ exPin 0 50 ++ exPin 0 1)).1.tl.app = false := by
  decide +kernel

/-- Two presses. -/
example : let s0 := Time.Debouncer.init ⟨0#32, 0, 1⟩ 1
    Time.Ordered ([(5, 1), (15, 0)] ++ (70, 0) :: [(80, 1), (140, 1), (150, 0)]) ∧
    Press s0 [(5, 1), (15, 0)] (70, 0) ∧
    Press s0 ([(5, 1), (15, 0)] ++ (70, 0) :: [(80, 1), (140, 1), (150, 0)]) (200, 0) := by
  refine ⟨?_, by decide, by decide⟩
  unfold Time.Ordered
  decide

/-- A press that is noticed after 50 ms. -/
example : Press (Time.Debouncer.init ⟨0#32, 0, 1⟩ 1) ([(5, 1)] ++ (15, 0) :: [(40, 0), (64, 0)]) (65, 0) :=
  C63_press_noticed_partial _ [(5, 1)] 15 65 [(40, 0), (64, 0)] (by decide) (by decide) (by decide)
    (by decide) (by decide) (by decide)

end Verif.Dev
