import Verif.Dev.LoopSpec
import Verif.Util.TimeProps
import Verif.TL4.Lemmas

/-!
# Lemmas about the main loop
-/

namespace Verif.Dev

open Verif.Knx

section
variable (W : World) (group : Dev → Buf → Nat → Dev × Option (Buf → Buf))

theorem setOwn_restart (d : Dev) (a : Word) : (setOwnAddress W d a).restart = d.restart := by
  unfold setOwnAddress setOwnAddressDefault
  dsimp only
  repeat' split
  all_goals rfl

theorem broadcast_restart (d : Dev) (t : Buf) : (broadcast W d t).1.restart = d.restart := by
  unfold broadcast defaultBroadcast
  dsimp only
  repeat' split
  all_goals first | rfl | exact setOwn_restart W d _

theorem processApci_restart (d : Dev) (t : Buf) (l : Nat) (sb : Buf) (h : d.restart = .none) :
    (processApci W d t l sb).1.restart = (restartWanted t).getD .none := by
  unfold restartWanted
  by_cases h1 : apciCommand t = 0x380#16
  · rw [if_pos h1]
    unfold processApci bcu2Apci defaultApci
    rw [h1]
    split <;> rfl
  · rw [if_neg h1]
    by_cases h2 : apciCommand t = 0x381#16
    · rw [if_pos h2]
      have e : (processApci W d t l sb).1 = (masterReset d (t 8) (t 9) sb).1 := by
        unfold processApci bcu2Apci defaultApci
        rw [h2]
        split <;> rfl
      rw [e]
      unfold masterReset
      dsimp only
      by_cases h3 : t 8 = 7#8 ∧ t 9 = 255#8
      · rw [if_pos h3, if_pos h3]; rfl
      · rw [if_neg h3, if_neg h3]
        by_cases h4 : t 8 = 0#8 ∨ 7 < (t 8).toNat
        · have hr : ¬ (1 ≤ (t 8).toNat ∧ (t 8).toNat ≤ 7) := by
            rintro ⟨h5, h6⟩
            rcases h4 with h4 | h4
            · rw [h4] at h5; revert h5; decide
            · omega
          rw [if_pos h4, if_neg hr]
          exact h
        · have hr : 1 ≤ (t 8).toNat ∧ (t 8).toNat ≤ 7 := by
            have : (t 8).toNat ≠ 0 := fun hc => h4 (Or.inl (BitVec.eq_of_toNat_eq hc))
            have : ¬ 7 < (t 8).toNat := fun hc => h4 (Or.inr hc)
            omega
          rw [if_neg h4, if_pos hr]
          rfl
    · rw [if_neg h2, (processApci_core (W := W) d t l sb).2 h1 h2, h]; rfl

/-- What an operation of the transport layer does to the variables of the loop. -/
theorem step_restart (hg : ∀ d t l, (group d t l).1.restart = d.restart) (s : TL4.State Dev)
    (op : TL4.Op) (h : s.app.restart = .none) :
    (TL4.step (app W group) s op).1.app.restart =
        (request ((TL4.step (app W group) s op).2.map .bus)).getD .none ∧
      ((∀ t l, op ≠ .rx t l) → request ((TL4.step (app W group) s op).2.map .bus) = none) ∧
      (∀ rt, request ((TL4.step (app W group) s op).2.map .bus) = some rt → rt ≠ .none ∧
        (TL4.step (app W group) s op).1.phase = s.phase) := by
  have hw : ∀ t rt, restartWanted t = some rt → rt ≠ .none := by
    intro t rt
    unfold restartWanted
    repeat' split
    all_goals (intro h; cases h; try exact fun h => by cases h)
  have hq : ∀ (o : List TL4.Out), (∀ x ∈ o, requestIn (.bus x) = none) → request (o.map .bus) = none := by
    intro o ho
    unfold request
    rw [List.findSome?_eq_none_iff]
    intro x hx
    obtain ⟨y, hy, rfl⟩ := List.mem_map.mp hx
    exact ho y hy
  have quiet : ∀ r : TL4.State Dev × List TL4.Out, r.1.app.restart = .none →
      (∀ x ∈ r.2, requestIn (.bus x) = none) →
      r.1.app.restart = (request (r.2.map .bus)).getD .none ∧
      ((∀ t l, op ≠ .rx t l) → request (r.2.map .bus) = none) ∧
      (∀ rt, request (r.2.map .bus) = some rt → rt ≠ .none ∧ r.1.phase = s.phase) := by
    intro r h1 h2
    rw [hq _ h2]
    exact ⟨h1, fun _ => rfl, fun _ h => by cases h⟩
  cases hx : TL4.exec (app W group) s op with
  | none =>
    have : TL4.step (app W group) s op = (s, []) := by unfold TL4.step; rw [hx]; rfl
    rw [this]
    exact quiet _ h (by simp)
  | some r =>
    have hst : TL4.step (app W group) s op = r := by unfold TL4.step; rw [hx]; rfl
    rw [hst]
    obtain ⟨s', o⟩ := r
    cases TL4.exec_trans _ s s' op o hx with
    | rxBroadcast t len hd => exact quiet _ ((broadcast_restart W _ _).trans h) (by simp [requestIn])
    | rxBroadcastSend t len f hd => exact quiet _ ((broadcast_restart W _ _).trans h) (by simp [requestIn])
    | rxGroup t len hd hgr => exact quiet _ ((hg _ _ _).trans h) (by simp [requestIn])
    | rxGroupSend t len f hd hgr => exact quiet _ ((hg _ _ _).trans h) (by simp [requestIn])
    | individual t len hu =>
      have e : request ([TL4.Out.apciIndividual t len].map MainOut.bus) = restartWanted t := by
        simp [request, requestIn]
      rw [e]
      exact ⟨processApci_restart W _ t len _ h, fun hc => absurd rfl (hc t len),
        fun rt hr => ⟨hw t rt hr, rfl⟩⟩
    | individualSend t len r hu hc htx hr hs =>
      subst hr
      have e : ∀ f, request ([TL4.Out.apciIndividual t len, .sentIndividual f].map MainOut.bus) =
          restartWanted t := by
        intro f
        cases hh : restartWanted t <;> simp [request, requestIn, hh, List.findSome?_cons]
      rw [e]
      exact ⟨processApci_restart W _ t len _ h, fun hc => absurd rfl (hc t len),
        fun rt hr => ⟨hw t rt hr, rfl⟩⟩
    | dataAccepted t len hu =>
      have e : ∀ f, request ([TL4.Out.sentControl f, .apciConnected t len].map MainOut.bus) =
          restartWanted t := by
        intro f
        cases hh : restartWanted t <;> simp [request, requestIn, hh, List.findSome?_cons]
      unfold TL4.ctrlOut
      rw [e]
      refine ⟨?_, fun hc => absurd rfl (hc t len), fun rt hr => ⟨hw t rt hr, ?_⟩⟩
      · unfold TL4.a02Process
        dsimp only
        repeat' split
        all_goals exact processApci_restart W _ t len _ h
      · unfold TL4.a02Process
        dsimp only
        repeat' split
        all_goals rfl
    | ackOk t len =>
      refine quiet _ ?_ (by simp)
      have : (TL4.a08 s).app = s.app := by
        unfold TL4.a08
        dsimp only
        repeat' split
        all_goals rfl
      show (TL4.a08 s).app.restart = _
      rw [this, h]
    | _ => exact quiet _ h (by simp [requestIn, TL4.ctrlOut, TL4.dataOut])

/-- Operations of the transport layer and the clock. -/
theorem step_clock {σ : Type} (A : TL4.App σ) (s : TL4.State σ) (op : TL4.Op) :
    (TL4.step A s op).1.clock = s.clock + (match op with | .advance ms => ms | _ => 0) := by
  cases hx : TL4.exec A s op with
  | none =>
    have : TL4.step A s op = (s, []) := by unfold TL4.step; rw [hx]; rfl
    rw [this]
    cases op <;> first | rfl | (simp [TL4.exec] at hx)
  | some r =>
    have hst : TL4.step A s op = r := by unfold TL4.step; rw [hx]; rfl
    rw [hst]
    obtain ⟨s', o⟩ := r
    cases TL4.exec_trans _ s s' op o hx with
    | dataAccepted t len hu =>
      unfold TL4.a02Process
      dsimp only
      repeat' split
      all_goals rfl
    | ackOk t len =>
      unfold TL4.a08
      dsimp only
      repeat' split
      all_goals rfl
    | _ => rfl

theorem txDone_phase {σ : Type} (A : TL4.App σ) (s : TL4.State σ) (ok : Bool) :
    (TL4.step A s (.txDone ok)).1.phase = s.phase := by
  cases hx : TL4.exec A s (.txDone ok) with
  | none =>
    have : TL4.step A s (.txDone ok) = (s, []) := by unfold TL4.step; rw [hx]; rfl
    rw [this]
  | some r =>
    have hst : TL4.step A s (.txDone ok) = r := by unfold TL4.step; rw [hx]; rfl
    rw [hst]
    obtain ⟨s', o⟩ := r
    cases TL4.exec_trans _ s s' _ o hx <;> rfl

theorem inv_app {σ : Type} {s : TL4.State σ} (h : TL4.Inv s) (d : σ) (a : Word) :
    TL4.Inv { s with app := d, ownAddr := a } :=
  ⟨h.1, h.2, h.3, h.4, h.5, h.6, h.7, h.8, h.9, h.10⟩

theorem request_append (a b : List MainOut) : request (a ++ b) = (request a).or (request b) := by
  unfold request
  exact List.findSome?_append

/-- A part of the loop that schedules no restart. -/
structure Quiet (m : Main) (r : MRes) : Prop where
  clock : r.1.tl.clock = m.tl.clock
  off : r.1.off = m.off
  inv : TL4.Inv m.tl → TL4.Inv r.1.tl
  req : request r.2 = none
  restart : r.1.restart = m.restart
  sendDisc : r.1.sendDisc = m.sendDisc
  timeout : r.1.timeout = m.timeout
  nores : ∀ b, MainOut.reset b ∉ r.2

/-- A part of the loop that may schedule a restart. -/
structure Piece (m : Main) (r : MRes) : Prop where
  clock : r.1.tl.clock = m.tl.clock
  off : r.1.off = m.off
  inv : TL4.Inv m.tl → TL4.Inv r.1.tl
  none : request r.2 = none →
    r.1.restart = m.restart ∧ r.1.sendDisc = m.sendDisc ∧ r.1.timeout = m.timeout
  some : ∀ rt, request r.2 = some rt → rt ≠ .none ∧ r.1.restart = rt ∧
    r.1.sendDisc = decide (r.1.tl.phase ≠ .closed) ∧
    r.1.timeout = Time.Timeout.start m.tl.clock 250#32
  nores : ∀ b, MainOut.reset b ∉ r.2

theorem Quiet.piece {m : Main} {r : MRes} (h : Quiet m r) : Piece m r :=
  ⟨h.clock, h.off, h.inv, fun _ => ⟨h.restart, h.sendDisc, h.timeout⟩,
    fun rt hr => absurd hr (by rw [h.req]; exact fun e => by cases e), h.nores⟩

theorem Quiet.refl (m : Main) : Quiet m (m, []) := ⟨rfl, rfl, id, rfl, rfl, rfl, rfl, by simp⟩

theorem nores_append {a b : List MainOut} (h : ∀ x, MainOut.reset x ∉ a)
    (k : ∀ x, MainOut.reset x ∉ b) : ∀ x, MainOut.reset x ∉ a ++ b := by
  intro x hx
  rcases List.mem_append.mp hx with hx | hx
  · exact h x hx
  · exact k x hx

theorem nores_bus (o : List TL4.Out) : ∀ x, MainOut.reset x ∉ o.map MainOut.bus := by
  intro x hx
  obtain ⟨y, -, hy⟩ := List.mem_map.mp hx
  cases hy

theorem Quiet.then {m : Main} {r : MRes} {f : Main → MRes} (h : Quiet m r) (k : Quiet r.1 (f r.1)) :
    Quiet m (r.then f) := by
  refine ⟨k.clock.trans h.clock, k.off.trans h.off, fun hi => k.inv (h.inv hi), ?_,
    k.restart.trans h.restart, k.sendDisc.trans h.sendDisc, k.timeout.trans h.timeout,
    nores_append h.nores k.nores⟩
  show request (r.2 ++ (f r.1).2) = none
  rw [request_append, h.req, k.req]; rfl

theorem Quiet.then_piece {m : Main} {r : MRes} {f : Main → MRes} (h : Quiet m r)
    (k : Piece r.1 (f r.1)) : Piece m (r.then f) := by
  have e : request (r.then f).2 = request (f r.1).2 := by
    show request (r.2 ++ (f r.1).2) = _
    rw [request_append, h.req]; rfl
  refine ⟨k.clock.trans h.clock, k.off.trans h.off, fun hi => k.inv (h.inv hi), ?_, ?_,
    nores_append h.nores k.nores⟩
  · intro hn
    rw [e] at hn
    obtain ⟨h1, h2, h3⟩ := k.none hn
    exact ⟨h1.trans h.restart, h2.trans h.sendDisc, h3.trans h.timeout⟩
  · intro rt hr
    rw [e] at hr
    obtain ⟨h1, h2, h3, h4⟩ := k.some rt hr
    exact ⟨h1, h2, h3, by rw [← h.clock]; exact h4⟩

theorem Piece.then_quiet {m : Main} {r : MRes} {f : Main → MRes} (h : Piece m r)
    (k : Quiet r.1 (f r.1)) (hp : (f r.1).1.tl.phase = r.1.tl.phase) : Piece m (r.then f) := by
  have e : request (r.then f).2 = request r.2 := by
    show request (r.2 ++ (f r.1).2) = _
    rw [request_append, k.req]; cases request r.2 <;> rfl
  refine ⟨k.clock.trans h.clock, k.off.trans h.off, fun hi => k.inv (h.inv hi), ?_, ?_,
    nores_append h.nores k.nores⟩
  · intro hn
    rw [e] at hn
    obtain ⟨h1, h2, h3⟩ := h.none hn
    exact ⟨k.restart.trans h1, k.sendDisc.trans h2, k.timeout.trans h3⟩
  · intro rt hr
    rw [e] at hr
    obtain ⟨h1, h2, h3, h4⟩ := h.some rt hr
    refine ⟨h1, k.restart.trans h2, ?_, k.timeout.trans h4⟩
    show (f r.1).1.sendDisc = decide ((f r.1).1.tl.phase ≠ .closed)
    rw [k.sendDisc, h3, hp]

/-- A call into the transport layer, apart from the passing of time. -/
theorem tlOp_all (hg : ∀ d t l, (group d t l).1.restart = d.restart) (m : Main) (op : TL4.Op) :
    (tlOp W group m op).1.tl.clock = m.tl.clock + (match op with | .advance ms => ms | _ => 0) ∧
    (tlOp W group m op).1.off = m.off ∧
    (TL4.Inv m.tl → TL4.Inv (tlOp W group m op).1.tl) ∧
    (request (tlOp W group m op).2 = none → (tlOp W group m op).1.restart = m.restart ∧
      (tlOp W group m op).1.sendDisc = m.sendDisc ∧ (tlOp W group m op).1.timeout = m.timeout) ∧
    (∀ rt, request (tlOp W group m op).2 = some rt → rt ≠ .none ∧
      (tlOp W group m op).1.restart = rt ∧
      (tlOp W group m op).1.sendDisc = decide ((tlOp W group m op).1.tl.phase ≠ .closed) ∧
      (tlOp W group m op).1.timeout = Time.Timeout.start m.tl.clock 250#32) ∧
    ((∀ t l, op ≠ .rx t l) → request (tlOp W group m op).2 = none) ∧
    (∀ ok, op = .txDone ok → (tlOp W group m op).1.tl.phase = m.tl.phase) := by
  unfold tlOp
  dsimp only
  generalize hs0 : ({ m.tl with app := { m.tl.app with restart := .none } } : TL4.State Dev) = s0
  have hr0 : s0.app.restart = .none := by rw [← hs0]
  have hc0 : s0.clock = m.tl.clock := by rw [← hs0]
  have hp0 : s0.phase = m.tl.phase := by rw [← hs0]
  have hi0 : TL4.Inv m.tl → TL4.Inv s0 := fun h => by
    rw [← hs0]; exact ⟨h.1, h.2, h.3, h.4, h.5, h.6, h.7, h.8, h.9, h.10⟩
  obtain ⟨h1, h2, h3⟩ := step_restart W group hg s0 op hr0
  have hck := step_clock (app W group) s0 op
  have hiv := TL4.inv_step (app W group) s0 op
  have hph : ∀ ok, op = .txDone ok → (TL4.step (app W group) s0 op).1.phase = s0.phase := by
    rintro ok rfl; exact txDone_phase _ s0 ok
  -- the result of the system step
  have key : (sysStep W group s0 (.tl op)).2 = (TL4.step (app W group) s0 op).2 ∧
      (sysStep W group s0 (.tl op)).1.app.restart = (TL4.step (app W group) s0 op).1.app.restart ∧
      (sysStep W group s0 (.tl op)).1.clock = (TL4.step (app W group) s0 op).1.clock ∧
      (sysStep W group s0 (.tl op)).1.phase = (TL4.step (app W group) s0 op).1.phase ∧
      (TL4.Inv (TL4.step (app W group) s0 op).1 → TL4.Inv (sysStep W group s0 (.tl op)).1) := by
    unfold sysStep
    dsimp only
    split
    · exact ⟨rfl, setOwn_restart W _ _, rfl, rfl,
        fun h => ⟨h.1, h.2, h.3, h.4, h.5, h.6, h.7, h.8, h.9, h.10⟩⟩
    · exact ⟨rfl, rfl, rfl, rfl, fun h => ⟨h.1, h.2, h.3, h.4, h.5, h.6, h.7, h.8, h.9, h.10⟩⟩
  obtain ⟨k1, k2, k3, k4, k5⟩ := key
  generalize sysStep W group s0 (.tl op) = r at k1 k2 k3 k4 k5 ⊢
  rw [← k1] at h1 h2 h3
  rw [← k2] at h1
  rw [hc0] at hck
  rw [← k3] at hck
  have hn : request (r.2.map .bus) = none → r.1.app.restart = .none := fun e => by rw [h1, e]; rfl
  have hsm : ∀ rt, request (r.2.map .bus) = some rt → r.1.app.restart = rt ∧ rt ≠ .none :=
    fun rt e => ⟨by rw [h1, e]; rfl, (h3 rt e).1⟩
  refine ⟨?_, ?_, ?_, ?_, ?_, h2, ?_⟩
  · split <;> exact hck
  · split <;> rfl
  · intro hi
    split <;> exact k5 (hiv (hi0 hi))
  · intro e
    rw [if_neg (fun hc => hc (hn e))]
    exact ⟨rfl, rfl, rfl⟩
  · intro rt e
    obtain ⟨e1, e2⟩ := hsm rt e
    have hne : r.1.app.restart ≠ .none := by rw [e1]; exact e2
    split
    · refine ⟨e2, e1, ?_, rfl⟩
      show decide (m.tl.phase ≠ .closed) = decide (r.1.phase ≠ .closed)
      rw [k4, (h3 rt e).2, hp0]
    · rename_i hc; exact absurd hne hc
  · intro ok e
    split <;> exact k4.trans ((hph ok e).trans hp0)

theorem tlOp_quiet (hg : ∀ d t l, (group d t l).1.restart = d.restart) (m : Main) (op : TL4.Op)
    (h1 : ∀ t l, op ≠ .rx t l) (h2 : ∀ ms, op ≠ .advance ms) : Quiet m (tlOp W group m op) := by
  obtain ⟨a1, a2, a3, a4, -, a6, -⟩ := tlOp_all W group hg m op
  obtain ⟨b1, b2, b3⟩ := a4 (a6 h1)
  refine ⟨?_, a2, a3, a6 h1, b1, b2, b3, nores_bus _⟩
  cases op <;> first | exact a1 | exact absurd rfl (h2 _)

theorem irq_quiet (hg : ∀ d t l, (group d t l).1.restart = d.restart) (m : Main) (x : Option Bool) :
    Quiet m (irq W group x m) ∧ (irq W group x m).1.tl.phase = m.tl.phase := by
  unfold irq
  cases x with
  | none => exact ⟨Quiet.refl m, rfl⟩
  | some ok =>
    exact ⟨tlOp_quiet W group hg m _ (fun _ _ h => by cases h) (fun _ h => by cases h),
      (tlOp_all W group hg m (.txDone ok)).2.2.2.2.2.2 ok rfl⟩

theorem receive_piece (hg : ∀ d t l, (group d t l).1.restart = d.restart) (m : Main)
    (rx : Option (Buf × Nat)) (ack : Bool) : Piece m (receive W group rx ack m) := by
  unfold receive
  cases rx with
  | none => exact (Quiet.refl m).piece
  | some x =>
    dsimp only
    split
    · obtain ⟨a1, a2, a3, a4, a5, -, -⟩ := tlOp_all W group hg m (.rx x.1 x.2)
      exact ⟨a1, a2, a3, a4, a5, nores_bus _⟩
    · exact (Quiet.refl m).piece

theorem button_quiet (m : Main) (pin : Int) : Quiet m (pollButton pin m) := by
  refine ⟨rfl, rfl, ?_, rfl, rfl, rfl, rfl, by simp [pollButton]⟩
  intro h
  exact ⟨h.1, h.2, h.3, h.4, h.5, h.6, h.7, h.8, h.9, h.10⟩

/-- The loop up to the restart handling. -/
theorem head_piece (hg : ∀ d t l, (group d t l).1.restart = d.restart) (m : Main) (i : In) :
    Piece m (loopHead W group i m) := by
  unfold loopHead
  have q : Quiet m (((irq W group i.irq1 m).then (tlOp W group · .loop)).then (irq W group i.irq2)) :=
    Quiet.then (Quiet.then (irq_quiet W group hg m i.irq1).1
      (tlOp_quiet W group hg _ _ (fun _ _ h => by cases h) (fun _ h => by cases h)))
      (irq_quiet W group hg _ i.irq2).1
  exact ((q.then_piece (receive_piece W group hg _ i.rx i.ack1)).then_quiet (button_quiet _ _) rfl).then_quiet
    (irq_quiet W group hg _ i.irq3).1 (irq_quiet W group hg _ i.irq3).2

theorem flush_quiet (m : Main) : Quiet m (flush W m) := by
  unfold flush
  dsimp only
  split
  · exact ⟨rfl, rfl, fun h => ⟨h.1, h.2, h.3, h.4, h.5, h.6, h.7, h.8, h.9, h.10⟩, rfl, rfl, rfl, rfl, by simp⟩
  · exact ⟨rfl, rfl, fun h => ⟨h.1, h.2, h.3, h.4, h.5, h.6, h.7, h.8, h.9, h.10⟩, rfl, rfl, rfl, rfl, by simp⟩

theorem tail_quiet (hg : ∀ d t l, (group d t l).1.restart = d.restart) (m : Main) (i : In) :
    Quiet m (loopTail W group i m) := by
  unfold loopTail
  split
  · exact Quiet.refl m
  · have hf : ∀ m : Main, Quiet m
        (if m.tl.app.eeModified && decide (m.tl.phase = .closed) then flush W m else (m, [])) := by
      intro m
      split
      · exact flush_quiet W _
      · exact Quiet.refl _
    dsimp only
    refine Quiet.then ?_ (hf _)
    cases i.grp with
    | none => exact Quiet.refl m
    | some f =>
      dsimp only
      split
      · exact tlOp_quiet W group hg _ _ (fun _ _ h => by cases h) (fun _ h => by cases h)
      · exact Quiet.refl m

/-- `disconnect()` with a free buffer: a T_DISCONNECT to the partner of the (last) connection. -/
theorem tlOp_disconnect (m : Main) (h : m.tl.tx = .free) :
    SendsDisconnect (tlOp W group m .disconnect).2 m.tl.connectedAddr := by
  have e : (tlOp W group m .disconnect).2 =
      [.bus (TL4.ctrlOut m.tl TL4.T_DISCONNECT m.tl.connectedAddr 0)] := by
    unfold tlOp sysStep TL4.step TL4.exec
    dsimp only
    rw [TL4.a06_eq]
    dsimp only
    rw [if_pos h]
    rfl
  rw [e]
  unfold TL4.ctrlOut
  refine ⟨_, List.mem_singleton_self _, ?_⟩
  have hsz : telegramSize (TL4.conControlFrame m.tl.txBuf TL4.T_DISCONNECT m.tl.connectedAddr 0) = 7 := by
    have : TL4.conControlFrame m.tl.txBuf TL4.T_DISCONNECT m.tl.connectedAddr 0 5 = 0x60#8 := rfl
    unfold telegramSize
    rw [this]
    rfl
  rw [hsz]
  refine ⟨rfl, ?_, (by decide : (0x60#8 : Byte) &&& 0x80#8 = 0#8)⟩
  show makeWord (highByte m.tl.connectedAddr) (lowByte m.tl.connectedAddr) = _
  exact makeWord_high_low _

/-- The restart part of the loop. -/
theorem poll_cases (hg : ∀ d t l, (group d t l).1.restart = d.restart) (m : Main) (ack : Bool)
    (hi : TL4.Inv m.tl) :
    ((m.tl.tx = .sending ∨ ack = true ∨ m.restart = .none) → pollRestart W group ack m = (m, [])) ∧
    (m.tl.tx ≠ .sending → ack = false → m.restart ≠ .none → m.sendDisc = true →
      (pollRestart W group ack m).1.tl.clock = m.tl.clock ∧
      (pollRestart W group ack m).1.off = m.off ∧ TL4.Inv (pollRestart W group ack m).1.tl ∧
      request (pollRestart W group ack m).2 = none ∧
      (pollRestart W group ack m).1.restart = m.restart ∧
      (pollRestart W group ack m).1.sendDisc = false ∧
      (pollRestart W group ack m).1.timeout = m.timeout ∧
      (∀ b, MainOut.reset b ∉ (pollRestart W group ack m).2) ∧
      SendsDisconnect (pollRestart W group ack m).2 m.tl.connectedAddr) ∧
    (m.tl.tx ≠ .sending → ack = false → m.restart ≠ .none → m.sendDisc = false →
      (m.timeout.expired m.tl.clock).2 = false →
      pollRestart W group ack m = ({ m with timeout := (m.timeout.expired m.tl.clock).1 }, [])) ∧
    (m.tl.tx ≠ .sending → ack = false → m.restart ≠ .none → m.sendDisc = false →
      (m.timeout.expired m.tl.clock).2 = true →
      pollRestart W group ack m = softReset W { m with timeout := (m.timeout.expired m.tl.clock).1 }) := by
  refine ⟨?_, ?_, ?_, ?_⟩
  · intro h
    unfold pollRestart sendingFrame
    rcases h with h | h | h
    · rw [if_pos (by simp [h])]
    · rw [if_pos (by simp [h])]
    · rw [if_pos h]
      split <;> rfl
  · intro h1 h2 h3 h4
    have htx : m.tl.tx = .free := by
      have := hi.tx
      cases hh : m.tl.tx <;> simp_all
    have e : pollRestart W group ack m =
        (tlOp W group m .disconnect).then fun m => ({ m with sendDisc := false }, []) := by
      unfold pollRestart sendingFrame
      rw [if_neg (by simp [h1, h2]), if_neg h3, if_pos h4]
    have q := tlOp_quiet W group hg m .disconnect (fun _ _ h => by cases h) (fun _ h => by cases h)
    have hd := tlOp_disconnect W group m htx
    rw [e]
    generalize tlOp W group m .disconnect = r at q hd
    have e2 : (r.then fun m => ({ m with sendDisc := false }, [])).2 = r.2 := List.append_nil _
    refine ⟨q.clock, q.off, q.inv hi, ?_, q.restart, rfl, q.timeout, ?_, ?_⟩
    · rw [e2]; exact q.req
    · rw [e2]; exact q.nores
    · rw [e2]; exact hd
  · intro h1 h2 h3 h4 h5
    unfold pollRestart sendingFrame
    rw [if_neg (by simp [h1, h2]), if_neg h3, if_neg (by simp [h4])]
    dsimp only
    rw [if_neg (by simp [h5])]
  · intro h1 h2 h3 h4 h5
    unfold pollRestart sendingFrame
    rw [if_neg (by simp [h1, h2]), if_neg h3, if_neg (by simp [h4])]
    dsimp only
    rw [if_pos h5]

end

end Verif.Dev
