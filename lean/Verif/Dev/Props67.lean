import Verif.Dev.Props62
import Verif.TL4.PropsSend

/-!
# C67 — what one loop does

The device processes a received telegram only when it could also answer it, sends group telegrams
only while the application runs, and never waits for the bus.
-/

namespace Verif.Dev

open Verif.Knx

/-! ## Vocabulary -/

section
variable (W : World) (group : Dev → Buf → Nat → Dev × Option (Buf → Buf))

/-- The device at the moment a loop looks for a received telegram. -/
def atReceive (m : Main) (i : In) : Main :=
  (((irq W group i.irq1 m).then (tlOp W group · .loop)).then (irq W group i.irq2)).1

/-- What has been observed up to this moment. -/
def outsBefore (m : Main) (i : In) : List MainOut :=
  (((irq W group i.irq1 m).then (tlOp W group · .loop)).then (irq W group i.irq2)).2

/-- The device at the moment a loop looks for a group telegram to send. -/
def atSend (m : Main) (i : In) : Main :=
  (((loopHead W group i m).then (pollRestart W group i.ack2)).then (irq W group i.irq4)).1

/-- A telegram is being sent. -/
def Busy (m : Main) : Prop := m.tl.tx = .sending

/-- The transport layer is switched on in the system status (bit 2). -/
def TransportOn (m : Main) : Prop := m.tl.app.status.getLsbD 2 = true

/-- A device whose loop is called and that has not been reset. -/
def Alive (m : Main) : Prop := m.off = none ∧ m.tl.enabled = true

/-- Every state of a history that starts with the power-up. -/
def MainReachable (m : Main) : Prop := ∃ own clock app deb flash led es,
  m = (mainRun W group (Main.begin (TL4.init own clock app) deb flash led) es).1

end

section
variable (W : World) (group : Dev → Buf → Nat → Dev × Option (Buf → Buf))

/-! ## Induction over histories -/

/-- Whatever the parts of the loop keep, every event keeps. -/
theorem mainStep_keeps (P : Main → Prop) (Ok : Buf → Prop)
    (htl : ∀ m op, (∀ t len, op = .rx t len → Ok t) → P m → P (tlOp W group m op).1)
    (hbtn : ∀ m pin, P m → P (pollButton pin m).1)
    (hfl : ∀ m, P m → P (flush W m).1)
    (hprog : ∀ (m : Main) on, P m → P { m with tl := (sysStep W group m.tl (.setProgMode on)).1, led := !programmingMode (sysStep W group m.tl (.setProgMode on)).1.app })
    (hvars : ∀ (m : Main) r d t o, P m → P { m with restart := r, sendDisc := d, timeout := t, off := o })
    (m : Main) (e : MainEv) (he : ∀ i t len, e = .loop i → i.rx = some (t, len) → Ok t) (h : P m) :
    P (mainStep W group m e).1 := by
  have htl' : ∀ m op, (∀ t len, op ≠ .rx t len) → P m → P (tlOp W group m op).1 := fun m op ho h =>
    htl m op (fun t len e => absurd e (ho t len)) h
  have hirq : ∀ x m, P m → P (irq W group x m).1 := by
    intro x m h
    cases x with
    | none => exact h
    | some ok => exact htl' _ _ (fun _ _ e => by cases e) h
  have hpoll : ∀ ack m, P m → P (pollRestart W group ack m).1 := by
    intro ack m h
    unfold pollRestart
    split
    · exact h
    split
    · exact h
    split
    · exact hvars _ _ false _ _ (htl' m .disconnect (fun _ _ e => by cases e) h)
    · dsimp only
      split
      · unfold softReset
        exact hvars _ _ _ _ (some _) (hfl _ (hvars m _ _ (m.timeout.expired m.tl.clock).1 _ h))
      · exact hvars m _ _ (m.timeout.expired m.tl.clock).1 _ h
  have hhead : ∀ i m, (∀ t len, i.rx = some (t, len) → Ok t) → P m → P (loopHead W group i m).1 := by
    intro i m hok h
    have hl : ∀ m, P m → P (tlOp W group m .loop).1 := fun m h => htl' m _ (fun _ _ e => by cases e) h
    unfold loopHead
    refine hirq _ _ (hbtn _ _ ?_)
    show P (receive W group i.rx i.ack1 _).1
    unfold receive
    split
    · exact hirq _ _ (hl _ (hirq _ _ h))
    · rename_i hrx
      split
      · exact htl _ _ (fun t len e => by cases e; exact hok _ _ hrx) (hirq _ _ (hl _ (hirq _ _ h)))
      · exact hirq _ _ (hl _ (hirq _ _ h))
  have htail : ∀ i m, P m → P (loopTail W group i m).1 := by
    intro i m h
    unfold loopTail
    split
    · exact h
    · dsimp only
      have hs : ∀ r : MRes, P r.1 → P (r.then fun m =>
          if m.tl.app.eeModified && decide (m.tl.phase = .closed) then flush W m else (m, [])).1 := by
        intro r hr
        show P (if r.1.tl.app.eeModified && decide (r.1.tl.phase = .closed) then flush W r.1 else (r.1, [])).1
        split
        · exact hfl _ hr
        · exact hr
      apply hs
      split
      · exact h
      · split
        · exact htl' _ _ (fun _ _ e => by cases e) h
        · exact h
  unfold mainStep
  split
  · exact h
  cases e with
  | loop i =>
    show P (mainLoop W group i m).1
    unfold mainLoop
    split
    · exact h
    · exact htail _ _ (hirq _ _ (hpoll _ _ (hhead _ _ (fun t len => he i t len rfl) h)))
  | advance ms => exact htl' _ _ (fun _ _ e => by cases e) h
  | txDone ok => exact htl' _ _ (fun _ _ e => by cases e) h
  | userSend f => exact htl' _ _ (fun _ _ e => by cases e) h
  | setOwnAddress a => exact htl' _ _ (fun _ _ e => by cases e) h
  | setProgMode on => exact hprog _ on h

theorem mainRun_keeps (P : Main → Prop) (Good : MainEv → Prop)
    (hs : ∀ m e, Good e → P m → P (mainStep W group m e).1) (es : List MainEv) :
    (∀ e ∈ es, Good e) → ∀ m, P m → P (mainRun W group m es).1 := by
  induction es with
  | nil => intro _ m h; exact h
  | cons e es ih =>
    intro hg m h
    exact ih (fun e he => hg e (List.mem_cons_of_mem _ he)) _ (hs m e (hg e List.mem_cons_self) h)

/-! ## Invariant of the transport layer in every history -/

theorem sysStep_inv (s : TL4.State Dev) (op : TL4.Op) (h : TL4.Inv s) : TL4.Inv (sysStep W group s (.tl op)).1 := by
  have hi := TL4.inv_step (app W group) s op h
  unfold sysStep
  dsimp only
  split <;> exact ⟨hi.1, hi.2, hi.3, hi.4, hi.5, hi.6, hi.7, hi.8, hi.9, hi.10⟩

theorem tlOp_inv (m : Main) (op : TL4.Op) (h : TL4.Inv m.tl) : TL4.Inv (tlOp W group m op).1.tl := by
  have h0 : TL4.Inv ({ m.tl with app := { m.tl.app with restart := .none } } : TL4.State Dev) :=
    ⟨h.1, h.2, h.3, h.4, h.5, h.6, h.7, h.8, h.9, h.10⟩
  have hi := sysStep_inv W group _ op h0
  unfold tlOp
  dsimp only
  split <;> exact hi

theorem mainStep_inv (m : Main) (e : MainEv) (h : TL4.Inv m.tl) : TL4.Inv (mainStep W group m e).1.tl := by
  refine mainStep_keeps W group (fun m => TL4.Inv m.tl) (fun _ => True) (fun m op _ => tlOp_inv W group m op)
    ?_ ?_ ?_ ?_ m e (fun _ _ _ _ _ => trivial) h
  · intro m pin h; exact ⟨h.1, h.2, h.3, h.4, h.5, h.6, h.7, h.8, h.9, h.10⟩
  · intro m h; exact (flush_quiet W m).inv h
  · intro m on h; exact ⟨h.1, h.2, h.3, h.4, h.5, h.6, h.7, h.8, h.9, h.10⟩
  · intro m _ _ _ _ h; exact h

theorem reachable_inv {m : Main} (h : MainReachable W group m) : TL4.Inv m.tl := by
  obtain ⟨own, clock, app, deb, flash, led, es, rfl⟩ := h
  exact mainRun_keeps W group (fun m => TL4.Inv m.tl) (fun _ => True) (fun m e _ => mainStep_inv W group m e) es
    (fun _ _ => trivial) _ (TL4.inv_init own clock app)

theorem irq_inv (x : Option Bool) (m : Main) (h : TL4.Inv m.tl) : TL4.Inv (irq W group x m).1.tl := by
  cases x with
  | none => exact h
  | some ok => exact tlOp_inv W group _ _ h

theorem atReceive_inv (m : Main) (i : In) (h : TL4.Inv m.tl) : TL4.Inv (atReceive W group m i).tl :=
  irq_inv W group _ _ (tlOp_inv W group _ _ (irq_inv W group _ _ h))

theorem receive_inv (rx : Option (Buf × Nat)) (ack : Bool) (m : Main) (h : TL4.Inv m.tl) :
    TL4.Inv (receive W group rx ack m).1.tl := by
  unfold receive
  split
  · exact h
  · split
    · exact tlOp_inv W group _ _ h
    · exact h

theorem atPoll_inv (m : Main) (i : In) (h : TL4.Inv m.tl) : TL4.Inv (atPoll W group m i).tl := by
  have h1 := receive_inv W group i.rx i.ack1 _ (atReceive_inv W group m i h)
  exact irq_inv W group _ _ ⟨h1.1, h1.2, h1.3, h1.4, h1.5, h1.6, h1.7, h1.8, h1.9, h1.10⟩

theorem atSend_inv (m : Main) (i : In) (h : TL4.Inv m.tl) : TL4.Inv (atSend W group m i).tl := by
  refine irq_inv W group _ _ ?_
  show TL4.Inv (pollRestart W group i.ack2 (atPoll W group m i)).1.tl
  have h1 := atPoll_inv W group m i h
  generalize atPoll W group m i = p at h1
  unfold pollRestart
  split
  · exact h1
  split
  · exact h1
  split
  · exact tlOp_inv W group p .disconnect h1
  · dsimp only
    split
    · exact (flush_quiet W _).inv h1
    · exact h1

theorem free_of_inv {s : TL4.State Dev} (h : TL4.Inv s) (hb : s.tx ≠ .sending) : s.tx = .free := by
  have := h.tx
  cases hx : s.tx <;> simp_all

/-- An operation of the transport layer that need not wait. -/
theorem tlOp_free (m : Main) (op : TL4.Op) (hf : m.tl.tx = .free) (hop : ∀ ok, op ≠ .txDone ok) :
    ∃ s o, TL4.exec (app W group) { m.tl with app := { m.tl.app with restart := .none } } op = some (s, o) ∧
      (tlOp W group m op).2 = o.map .bus := by
  have h := TL4.C51_enabled_when_free (app W group)
    { m.tl with app := { m.tl.app with restart := .none } } op hf hop
  cases hx : TL4.exec (app W group) { m.tl with app := { m.tl.app with restart := .none } } op with
  | none => exact absurd hx h
  | some r =>
    refine ⟨r.1, r.2, rfl, ?_⟩
    unfold tlOp sysStep TL4.step
    dsimp only
    rw [hx]
    split <;> rfl

theorem mainStep_loop (m : Main) (i : In) (ha : Alive m) : mainStep W group m (.loop i) =
    (((loopHead W group i m).then (pollRestart W group i.ack2)).then (irq W group i.irq4)).then
      (loopTail W group i) := by
  unfold mainStep mainLoop
  rw [if_neg (by simp [ha.1])]
  dsimp only
  rw [if_neg (by simp [ha.1, ha.2])]

/-! ## Received telegrams -/

/-- **C67.** While a telegram or an acknowledge frame is being sent, or the transport layer is switched
off, a received telegram is not touched: the loop does what it would do without it. -/
theorem C67_held_back (m : Main) (i : In)
    (h : Busy (atReceive W group m i) ∨ i.ack1 = true ∨ ¬ TransportOn (atReceive W group m i)) :
    mainStep W group m (.loop i) = mainStep W group m (.loop { i with rx := none }) := by
  have hr : receive W group i.rx i.ack1 (atReceive W group m i) = (atReceive W group m i, []) := by
    unfold receive
    split
    · rfl
    · rw [if_neg]
      unfold sendingFrame
      rcases h with h | h | h
      · have : (atReceive W group m i).tl.tx = .sending := h
        simp [this]
      · simp [h]
      · have : (atReceive W group m i).tl.app.status.getLsbD 2 = false := by
          cases hx : (atReceive W group m i).tl.app.status.getLsbD 2 with
          | true => exact absurd hx h
          | false => rfl
        rw [this, Bool.and_false]
        exact Bool.false_ne_true
  have hh : loopHead W group i m = loopHead W group { i with rx := none } m := by
    unfold loopHead
    have e : (((irq W group i.irq1 m).then (tlOp W group · .loop)).then (irq W group i.irq2)).then
        (receive W group i.rx i.ack1) =
        (((irq W group i.irq1 m).then (tlOp W group · .loop)).then (irq W group i.irq2)).then
        (receive W group none i.ack1) := by
      show ((receive W group i.rx i.ack1 (atReceive W group m i)).1,
        outsBefore W group m i ++ (receive W group i.rx i.ack1 (atReceive W group m i)).2) =
        (atReceive W group m i, outsBefore W group m i ++ [])
      rw [hr]
    dsimp only
    rw [e]
  unfold mainStep
  dsimp only
  unfold mainLoop
  rw [hh]
  rfl

/-- **C67.** Otherwise the telegram is processed in this very loop, by the rules of the transport layer,
without waiting for the bus. -/
theorem C67_processed (m : Main) (hm : MainReachable W group m) (ha : Alive m) (i : In) (t : Buf) (len : Nat)
    (hrx : i.rx = some (t, len)) (hfree : ¬ Busy (atReceive W group m i)) (hack : i.ack1 = false)
    (hon : TransportOn (atReceive W group m i)) :
    ∃ s o rest, TL4.exec (app W group) { (atReceive W group m i).tl with
        app := { (atReceive W group m i).tl.app with restart := .none } } (.rx t len) = some (s, o) ∧
      (mainStep W group m (.loop i)).2 = outsBefore W group m i ++ o.map .bus ++ rest := by
  have hi := atReceive_inv W group m i (reachable_inv W group hm)
  obtain ⟨s, o, h1, h2⟩ := tlOp_free W group (atReceive W group m i) (.rx t len) (free_of_inv hi hfree)
    (fun _ h => by cases h)
  have hr : receive W group i.rx i.ack1 (atReceive W group m i) =
      tlOp W group (atReceive W group m i) (.rx t len) := by
    rw [hrx]
    unfold receive
    dsimp only
    rw [if_pos]
    unfold sendingFrame
    have e1 : ¬ (atReceive W group m i).tl.tx = .sending := hfree
    have e2 : (atReceive W group m i).tl.app.status.getLsbD 2 = true := hon
    simp [e1, e2, hack]
  have e : ∃ z, (loopHead W group i m).2 = outsBefore W group m i ++ o.map .bus ++ z := by
    rw [← h2, ← hr]
    refine ⟨[] ++ (irq W group i.irq3
      (pollButton i.pin (receive W group i.rx i.ack1 (atReceive W group m i)).1).1).2, ?_⟩
    rw [← List.append_assoc]
    rfl
  obtain ⟨z, e⟩ := e
  rw [mainStep_loop W group m i ha]
  have hx : ∀ (r : MRes) (f g h : Main → MRes), ∃ y, (((r.then f).then g).then h).2 = r.2 ++ y := by
    intro r f g h
    exact ⟨_, by unfold MRes.then; dsimp only; rw [List.append_assoc, List.append_assoc]⟩
  obtain ⟨y, hy⟩ := hx (loopHead W group i m) (pollRestart W group i.ack2) (irq W group i.irq4) (loopTail W group i)
  refine ⟨s, o, z ++ y, h1, ?_⟩
  rw [hy, e]
  exact List.append_assoc _ _ _

/-! ## Group telegrams -/

/-- **C67.** No group telegram is sent while the application does not run, while something else is being
sent, or after the reset: the loop does what it would do if there were none. -/
theorem C67_group_held_back (m : Main) (i : In)
    (h : applicationRunning W.kind (atSend W group m i).tl.app = false ∨ Busy (atSend W group m i) ∨
      i.ack3 = true ∨ (atSend W group m i).off ≠ none) :
    mainStep W group m (.loop i) = mainStep W group m (.loop { i with grp := none }) := by
  have ht : loopTail W group i (atSend W group m i) =
      loopTail W group { i with grp := none } (atSend W group m i) := by
    generalize atSend W group m i = p at h
    unfold loopTail
    dsimp only
    by_cases hc : (p.off.isSome || sendingFrame p i.ack3) = true
    · rw [if_pos hc, if_pos hc]
    · rw [if_neg hc, if_neg hc]
      have hr : applicationRunning W.kind p.tl.app = false := by
        rcases h with h | h | h | h
        · exact h
        · exfalso; apply hc; unfold sendingFrame; have : p.tl.tx = .sending := h; simp [this]
        · exfalso; apply hc; unfold sendingFrame; simp [h]
        · exfalso; apply hc
          cases ho : p.off with
          | none => exact absurd ho h
          | some b => rfl
      cases hg : i.grp with
      | none => rfl
      | some f => dsimp only; rw [hr]; rfl
  unfold mainStep mainLoop
  split
  · rfl
  dsimp only
  split
  · rfl
  · show ((loopTail W group i (atSend W group m i)).1, _ ++ (loopTail W group i (atSend W group m i)).2) = _
    rw [ht]
    rfl

/-- **C67.** Otherwise it is sent in this very loop. -/
theorem C67_group_sent (m : Main) (hm : MainReachable W group m) (ha : Alive m) (i : In) (f : Buf → Buf)
    (hgrp : i.grp = some f) (hrun : applicationRunning W.kind (atSend W group m i).tl.app = true)
    (hfree : ¬ Busy (atSend W group m i)) (hack : i.ack3 = false) (hoff : (atSend W group m i).off = none) :
    MainOut.bus (.userSent (bytes (f (atSend W group m i).tl.txBuf)
      (telegramSize (f (atSend W group m i).tl.txBuf)))) ∈ (mainStep W group m (.loop i)).2 := by
  have hi := atSend_inv W group m i (reachable_inv W group hm)
  have hf := free_of_inv hi hfree
  rw [mainStep_loop W group m i ha]
  refine List.mem_append_right _ ?_
  show _ ∈ (loopTail W group i (atSend W group m i)).2
  generalize atSend W group m i = p at *
  unfold loopTail
  have e1 : ¬ p.tl.tx = .sending := hfree
  rw [if_neg (by simp [sendingFrame, hoff, hack, e1]), hgrp]
  dsimp only
  rw [if_pos hrun]
  refine List.mem_append_left _ ?_
  unfold tlOp sysStep TL4.step TL4.exec TL4.userSend TL4.acquire
  dsimp only
  rw [if_pos hf]
  refine List.mem_map.mpr ⟨_, List.mem_singleton_self _, rfl⟩

/-! ## The loop never waits -/

/-- **C67.** Wherever the loop wants to send something, the send buffer is free: it never waits for the
end of a transmission. -/
theorem C67_never_waits (m : Main) (hm : MainReachable W group m) (i : In) :
    TL4.exec (app W group) { (irq W group i.irq1 m).1.tl with
      app := { (irq W group i.irq1 m).1.tl.app with restart := .none } } .loop ≠ none ∧
    (sendingFrame (atReceive W group m i) i.ack1 = false → (atReceive W group m i).tl.tx = .free) ∧
    (sendingFrame (atPoll W group m i) i.ack2 = false → (atPoll W group m i).tl.tx = .free) ∧
    (sendingFrame (atSend W group m i) i.ack3 = false → (atSend W group m i).tl.tx = .free) := by
  have hi := reachable_inv W group hm
  have hs : ∀ (p : Main) ack, TL4.Inv p.tl → sendingFrame p ack = false → p.tl.tx = .free := by
    intro p ack h hf
    refine free_of_inv h ?_
    intro hc
    unfold sendingFrame at hf
    simp [hc] at hf
  refine ⟨?_, hs _ _ (atReceive_inv W group m i hi), hs _ _ (atPoll_inv W group m i hi), hs _ _ (atSend_inv W group m i hi)⟩
  generalize hp : ({ (irq W group i.irq1 m).1.tl with
      app := { (irq W group i.irq1 m).1.tl.app with restart := .none } } : TL4.State Dev) = s
  by_cases hf : s.tx = .free
  · exact TL4.C51_enabled_when_free _ _ _ hf (fun _ h => by cases h)
  · show TL4.loop s ≠ none
    unfold TL4.loop
    split
    · simp
    · simp

end

/-! ## The hypotheses are met -/

/-- A telegram that is processed at once, and one that has to wait for the T_ACK of the previous one. -/
example : Alive exM1 ∧ ¬ Busy (atReceive exWorld exGroup exM1 exReqIn) ∧ exReqIn.ack1 = false ∧
    TransportOn (atReceive exWorld exGroup exM1 exReqIn) ∧
    Busy (atReceive exWorld exGroup (mainStep exWorld exGroup exM1 (.loop exReqIn)).1 exReqIn) := by
  unfold Alive Busy TransportOn
  decide +kernel

example : MainReachable exWorld exGroup exM1 :=
  ⟨0x1105#16, 0, _, ⟨0#32, 0, 1⟩, fun _ => 0xff#8, true, exPre, rfl⟩

/-- A device whose application runs, with a group telegram to send. -/
def ex67 : Main := Main.begin (TL4.init 0x1105#16 0 { exDev with
  ee := upd (upd (upd exDev.ee 0x371 1#8) 0x372 1#8) 0x373 1#8 }) ⟨0#32, 0, 1⟩ (fun _ => 0xff#8) true
def ex67In : In := { rx := none, pin := 1, grp := some (fun b => upd b 0 0xbc#8) }

example : Alive ex67 ∧ applicationRunning exWorld.kind (atSend exWorld exGroup ex67 ex67In).tl.app = true ∧
    ¬ Busy (atSend exWorld exGroup ex67 ex67In) ∧ (atSend exWorld exGroup ex67 ex67In).off = none ∧
    applicationRunning exWorld.kind (atSend exWorld exGroup exM1 ex67In).tl.app = false := by
  unfold Alive Busy
  decide +kernel

end Verif.Dev
