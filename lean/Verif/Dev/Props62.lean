import Verif.Dev.LoopLemmas
import Verif.Dev.Props23

/-!
# C62 — restarts
-/

namespace Verif.Dev

open Verif.Knx

section
variable (W : World) (group : Dev → Buf → Nat → Dev × Option (Buf → Buf))

/-- A restart is pending: requested at time `c`, with a T_DISCONNECT still to be sent or not. -/
structure Pending (m : Main) (rt : RestartType) (c : Nat) (disc : Bool) : Prop where
  restart : m.restart = rt
  ne : rt ≠ .none
  sendDisc : m.sendDisc = disc
  timeout : m.timeout = Time.Timeout.start c 250#32
  past : c ≤ m.tl.clock
  inv : TL4.Inv m.tl
  running : m.off = none

/-- No restart is pending. -/
structure Idle (m : Main) : Prop where
  restart : m.restart = .none
  inv : TL4.Inv m.tl
  running : m.off = none

theorem Quiet.pending {m : Main} {r : MRes} {rt : RestartType} {c : Nat} {disc : Bool} (q : Quiet m r)
    (h : Pending m rt c disc) : Pending r.1 rt c disc :=
  ⟨q.restart.trans h.restart, h.ne, q.sendDisc.trans h.sendDisc, q.timeout.trans h.timeout,
    by rw [q.clock]; exact h.past, q.inv h.inv, q.off.trans h.running⟩

theorem Quiet.idle {m : Main} {r : MRes} (q : Quiet m r) (h : Idle m) : Idle r.1 :=
  ⟨q.restart.trans h.restart, q.inv h.inv, q.off.trans h.running⟩

/-- The end of a restart that was requested 250 ms ago. -/
theorem expired_iff (c q : Nat) (h : c ≤ q) (hr : q < c + 2 ^ 31) :
    (Time.Timeout.start c 250#32).expired q =
      if c + Time.duration c 250 ≤ q then (.stop, true) else (Time.Timeout.start c 250#32, false) := by
  obtain ⟨h1, h2⟩ := Time.start_timeout c 250#32 (by decide)
  have h3 := Time.duration_ge c 250
  have e : (250#32 : U32).toNat = 250 := rfl
  rw [e] at h1
  split
  · rename_i hle
    exact Time.expired_late h1 h2 hle (by omega)
  · rename_i hlt
    exact Time.expired_early h1 h2 (by omega) (by omega)

theorem expired_not_early (c q : Nat) (h : c ≤ q)
    (hx : ((Time.Timeout.start c 250#32).expired q).2 = true) : c + 250 ≤ q := by
  obtain ⟨h1, h2⟩ := Time.start_timeout c 250#32 (by decide)
  have h3 := Time.duration_ge c 250
  have e : (250#32 : U32).toNat = 250 := rfl
  rw [e] at h1
  by_cases hlt : c + Time.duration c 250 ≤ q
  · omega
  · rw [Time.expired_early h1 h2 (by omega) (by omega)] at hx
    cases hx

theorem expired_false (t : Time.Timeout) (q : Nat) (h : (t.expired q).2 = false) : (t.expired q).1 = t := by
  unfold Time.Timeout.expired at h ⊢
  split
  · rename_i h1
    rw [if_pos h1] at h
    split
    · rename_i h2; rw [if_pos h2] at h; cases h
    · rfl
  · rfl

/-- What one loop does to a pending restart. -/
theorem loop_pending (hg : ∀ d t l, (group d t l).1.restart = d.restart) (m : Main) (i : In)
    (hoff : m.off = none) (hen : m.tl.enabled = true) (rt : RestartType) (c : Nat) (disc : Bool)
    (h : Pending (atPoll W group m i) rt c disc) :
    request (mainLoop W group i m).2 = request (loopHead W group i m).2 ∧
    (¬ Free W group m i → Pending (mainLoop W group i m).1 rt c disc ∧
      ∀ b, ¬ Resets (mainLoop W group i m).2 b) ∧
    (Free W group m i → disc = true → Pending (mainLoop W group i m).1 rt c false ∧
      (∀ b, ¬ Resets (mainLoop W group i m).2 b) ∧
      SendsDisconnect (mainLoop W group i m).2 (atPoll W group m i).tl.connectedAddr) ∧
    (Free W group m i → disc = false →
      ((Time.Timeout.start c 250#32).expired m.tl.clock).2 = false →
      Pending (mainLoop W group i m).1 rt c false ∧ ∀ b, ¬ Resets (mainLoop W group i m).2 b) ∧
    (Free W group m i → disc = false →
      ((Time.Timeout.start c 250#32).expired m.tl.clock).2 = true →
      (∀ b, Resets (mainLoop W group i m).2 b ↔ b = decide (rt = .masterIntoBootloader)) ∧
      (mainLoop W group i m).1.off = some (decide (rt = .masterIntoBootloader))) := by
  have hp := head_piece W group hg m i
  have eml : mainLoop W group i m =
      (((loopHead W group i m).then (pollRestart W group i.ack2)).then (irq W group i.irq4)).then
        (loopTail W group i) := by
    unfold mainLoop
    rw [if_neg (by simp [hoff, hen])]
  have hck : (atPoll W group m i).tl.clock = m.tl.clock := hp.clock
  have tail : ∀ p : Main, Quiet p (((irq W group i.irq4 p)).then (loopTail W group i)) := fun p =>
    Quiet.then (irq_quiet W group hg p i.irq4).1 (tail_quiet W group hg _ i)
  have e1 : (mainLoop W group i m).1 =
      ((irq W group i.irq4 (pollRestart W group i.ack2 (atPoll W group m i)).1).then
        (loopTail W group i)).1 := by rw [eml]; rfl
  have e2 : (mainLoop W group i m).2 = (loopHead W group i m).2 ++
      (pollRestart W group i.ack2 (atPoll W group m i)).2 ++
      ((irq W group i.irq4 (pollRestart W group i.ack2 (atPoll W group m i)).1).then
        (loopTail W group i)).2 := by
    rw [eml]
    unfold MRes.then atPoll
    simp
  obtain ⟨c1, c2, c3, c4⟩ := poll_cases W group hg (atPoll W group m i) i.ack2 h.inv
  have hne : (atPoll W group m i).restart ≠ .none := by rw [h.restart]; exact h.ne
  have q := tail (pollRestart W group i.ack2 (atPoll W group m i)).1
  generalize hP : pollRestart W group i.ack2 (atPoll W group m i) = P at *
  generalize hT : (irq W group i.irq4 P.1).then (loopTail W group i) = T at *
  have nf : ¬ Free W group m i → P = (atPoll W group m i, []) := by
    intro hf
    apply c1
    by_cases h1 : (atPoll W group m i).tl.tx = .sending
    · exact Or.inl h1
    · right; left
      cases ha : i.ack2 with
      | true => rfl
      | false => exact absurd ⟨h1, ha, hen, hoff⟩ hf
  have reqP : request P.2 = none := by
    by_cases hf : Free W group m i
    · obtain ⟨f1, f2, -, -⟩ := hf
      cases hd : disc with
      | true => exact (c2 f1 f2 hne (h.sendDisc.trans hd)).2.2.2.1
      | false =>
        cases hx : ((atPoll W group m i).timeout.expired (atPoll W group m i).tl.clock).2 with
        | false => rw [c3 f1 f2 hne (h.sendDisc.trans hd) hx]; rfl
        | true =>
          rw [c4 f1 f2 hne (h.sendDisc.trans hd) hx]
          have := (flush_quiet W { atPoll W group m i with
            timeout := ((atPoll W group m i).timeout.expired (atPoll W group m i).tl.clock).1 }).req
          unfold softReset MRes.then
          dsimp only
          rw [request_append, this]
          rfl
    · rw [nf hf]; rfl
  have nores : (∀ b, MainOut.reset b ∉ P.2) → ∀ b, ¬ Resets (mainLoop W group i m).2 b := by
    intro hn b hb
    unfold Resets at hb
    rw [e2] at hb
    exact nores_append (nores_append hp.nores hn) q.nores b hb
  refine ⟨?_, ?_, ?_, ?_, ?_⟩
  · rw [e2, request_append, request_append, reqP, q.req]
    cases request (loopHead W group i m).2 <;> rfl
  · intro hf
    have hn := nf hf
    refine ⟨?_, nores (by rw [hn]; simp)⟩
    rw [e1]
    apply q.pending
    rw [hn]
    exact h
  · rintro ⟨f1, f2, -, -⟩ hd
    obtain ⟨a1, a2, a3, a4, a5, a6, a7, a8, a9⟩ := c2 f1 f2 hne (h.sendDisc.trans hd)
    refine ⟨?_, nores a8, ?_⟩
    · rw [e1]
      apply q.pending
      exact ⟨a5.trans h.restart, h.ne, a6, a7.trans h.timeout, by rw [a1]; exact h.past, a3,
        a2.trans h.running⟩
    · obtain ⟨f, hf, hr⟩ := a9
      refine ⟨f, ?_, hr⟩
      rw [e2]
      exact List.mem_append_left _ (List.mem_append_right _ hf)
  · rintro ⟨f1, f2, -, -⟩ hd hx
    have hx' : ((atPoll W group m i).timeout.expired (atPoll W group m i).tl.clock).2 = false := by
      rw [h.timeout, hck]; exact hx
    have e := c3 f1 f2 hne (h.sendDisc.trans hd) hx'
    rw [expired_false _ _ hx'] at e
    refine ⟨?_, nores (by rw [e]; simp)⟩
    rw [e1]
    apply q.pending
    rw [e]
    exact ⟨h.restart, h.ne, h.sendDisc.trans hd, h.timeout, h.past, h.inv, h.running⟩
  · rintro ⟨f1, f2, -, -⟩ hd hx
    have hx' : ((atPoll W group m i).timeout.expired (atPoll W group m i).tl.clock).2 = true := by
      rw [h.timeout, hck]; exact hx
    have e := c4 f1 f2 hne (h.sendDisc.trans hd) hx'
    refine ⟨?_, ?_⟩
    · intro b
      unfold Resets
      rw [e2, e]
      unfold softReset MRes.then
      dsimp only
      rw [h.restart]
      constructor
      · intro hb
        rcases List.mem_append.mp hb with hb | hb
        · rcases List.mem_append.mp hb with hb | hb
          · exact absurd hb (hp.nores b)
          · rcases List.mem_append.mp hb with hb | hb
            · exact absurd hb ((flush_quiet W _).nores b)
            · simpa using hb
        · exact absurd hb (q.nores b)
      · rintro rfl
        exact List.mem_append_left _ (List.mem_append_right _ (List.mem_append_right _ (by simp)))
    · rw [e1, q.off, e]
      show some (decide ((atPoll W group m i).restart = _)) = _
      rw [h.restart]

/-- One loop without a pending restart and without a request. -/
theorem loop_idle (hg : ∀ d t l, (group d t l).1.restart = d.restart) (m : Main) (i : In)
    (hoff : m.off = none) (hen : m.tl.enabled = true) (h : Idle (atPoll W group m i)) :
    request (mainLoop W group i m).2 = request (loopHead W group i m).2 ∧
    Idle (mainLoop W group i m).1 ∧ ∀ b, ¬ Resets (mainLoop W group i m).2 b := by
  have hp := head_piece W group hg m i
  have eml : mainLoop W group i m =
      ((loopHead W group i m).then (pollRestart W group i.ack2)).then
        (fun p => (irq W group i.irq4 p).then (loopTail W group i)) := by
    unfold mainLoop
    rw [if_neg (by simp [hoff, hen])]
    unfold MRes.then
    simp
  have tail : ∀ p : Main, Quiet p (((irq W group i.irq4 p)).then (loopTail W group i)) := fun p =>
    Quiet.then (irq_quiet W group hg p i.irq4).1 (tail_quiet W group hg _ i)
  obtain ⟨c1, -⟩ := poll_cases W group hg (atPoll W group m i) i.ack2 h.inv
  have eP := c1 (Or.inr (Or.inr h.restart))
  have qP : Quiet (atPoll W group m i) (pollRestart W group i.ack2 (atPoll W group m i)) := by
    rw [eP]; exact Quiet.refl _
  have q := tail (pollRestart W group i.ack2 (atPoll W group m i)).1
  rw [eml]
  refine ⟨?_, q.idle (qP.idle h), nores_append (nores_append hp.nores qP.nores) q.nores⟩
  show request (((loopHead W group i m).2 ++ (pollRestart W group i.ack2 (atPoll W group m i)).2) ++
    ((irq W group i.irq4 (pollRestart W group i.ack2 (atPoll W group m i)).1).then
      (loopTail W group i)).2) = _
  rw [request_append, request_append, qP.req, q.req]
  cases request (loopHead W group i m).2 <;> rfl

/-- Nothing happens after the reset. -/
theorem step_off (m : Main) (e : MainEv) (h : m.off.isSome = true) : mainStep W group m e = (m, []) := by
  unfold mainStep; rw [if_pos h]

theorem run_off (m : Main) (es : List MainEv) (h : m.off.isSome = true) :
    mainRun W group m es = (m, []) := by
  induction es with
  | nil => rfl
  | cons e es ih =>
    show (mainStep W group m e).then (fun m => mainRun W group m es) = _
    rw [step_off W group m e h]
    unfold MRes.then
    dsimp only
    rw [ih]
    rfl

theorem run_cons (m : Main) (e : MainEv) (es : List MainEv) :
    mainRun W group m (e :: es) = (mainStep W group m e).then (mainRun W group · es) := rfl

theorem run_append (m : Main) (es fs : List MainEv) :
    mainRun W group m (es ++ fs) = (mainRun W group m es).then (mainRun W group · fs) := by
  induction es generalizing m with
  | nil =>
    show mainRun W group m fs = _
    unfold MRes.then
    rfl
  | cons e es ih =>
    rw [List.cons_append, run_cons, run_cons]
    unfold MRes.then
    dsimp only
    rw [ih]
    unfold MRes.then
    simp

/-- The events outside the loop. -/
theorem other_events (hg : ∀ d t l, (group d t l).1.restart = d.restart) (m : Main) (e : MainEv)
    (hoff : m.off = none) (he : ∀ i, e ≠ .loop i) :
    request (mainStep W group m e).2 = none ∧ (∀ b, ¬ Resets (mainStep W group m e).2 b) ∧
    (∀ rt c disc, Pending m rt c disc → Pending (mainStep W group m e).1 rt c disc) ∧
    (Idle m → Idle (mainStep W group m e).1) := by
  have quiet : Quiet m (mainStep W group m e) → _ := fun q =>
    (⟨q.req, q.nores, fun rt c disc h => q.pending h, fun h => q.idle h⟩ :
      request (mainStep W group m e).2 = none ∧ (∀ b, ¬ Resets (mainStep W group m e).2 b) ∧
      (∀ rt c disc, Pending m rt c disc → Pending (mainStep W group m e).1 rt c disc) ∧
      (Idle m → Idle (mainStep W group m e).1))
  have ho : ¬ m.off.isSome = true := by simp [hoff]
  cases e with
  | loop i => exact absurd rfl (he i)
  | advance ms =>
    have e : mainStep W group m (.advance ms) = tlOp W group m (.advance ms) := by
      unfold mainStep; rw [if_neg ho]
    obtain ⟨a1, a2, a3, a4, a5, a6, -⟩ := tlOp_all W group hg m (.advance ms)
    have hr := a6 (fun _ _ h => by cases h)
    obtain ⟨b1, b2, b3⟩ := a4 hr
    rw [e]
    refine ⟨hr, nores_bus _, ?_, ?_⟩
    · intro rt c disc h
      exact ⟨b1.trans h.restart, h.ne, b2.trans h.sendDisc, b3.trans h.timeout,
        by rw [a1]; have := h.past; omega, a3 h.inv, a2.trans h.running⟩
    · intro h
      exact ⟨b1.trans h.restart, a3 h.inv, a2.trans h.running⟩
  | txDone ok =>
    apply quiet
    have e : mainStep W group m (.txDone ok) = tlOp W group m (.txDone ok) := by
      unfold mainStep; rw [if_neg ho]
    rw [e]
    exact tlOp_quiet W group hg m _ (fun _ _ h => by cases h) (fun _ h => by cases h)
  | userSend f =>
    apply quiet
    have e : mainStep W group m (.userSend f) = tlOp W group m (.userSend f) := by
      unfold mainStep; rw [if_neg ho]
    rw [e]
    exact tlOp_quiet W group hg m _ (fun _ _ h => by cases h) (fun _ h => by cases h)
  | setOwnAddress a =>
    apply quiet
    have e : mainStep W group m (.setOwnAddress a) = tlOp W group m (.setOwnAddress a) := by
      unfold mainStep; rw [if_neg ho]
    rw [e]
    exact tlOp_quiet W group hg m _ (fun _ _ h => by cases h) (fun _ h => by cases h)
  | setProgMode on =>
    apply quiet
    unfold mainStep
    rw [if_neg ho]
    exact ⟨rfl, rfl, fun h => ⟨h.1, h.2, h.3, h.4, h.5, h.6, h.7, h.8, h.9, h.10⟩, rfl, rfl, rfl, rfl,
      nores_bus _⟩

/-- An event in which a restart is requested: it is a loop, and the restart is pending afterwards. -/
theorem step_request (hg : ∀ d t l, (group d t l).1.restart = d.restart) (m : Main) (e : MainEv)
    (rt : RestartType) (hi : TL4.Inv m.tl) (h : request (mainStep W group m e).2 = some rt) :
    ∃ i, e = .loop i ∧ (∀ b, ¬ Resets (mainStep W group m e).2 b) ∧
      (¬ Free W group m i → Pending (mainStep W group m e).1 rt m.tl.clock
        (decide ((atPoll W group m i).tl.phase ≠ .closed))) ∧
      (Free W group m i → Pending (mainStep W group m e).1 rt m.tl.clock false) := by
  cases hoff : m.off with
  | some b =>
    rw [step_off W group m e (by simp [hoff])] at h
    cases h
  | none =>
    by_cases he : ∀ i, e ≠ .loop i
    · rw [(other_events W group hg m e hoff he).1] at h
      cases h
    · have ⟨i, hei⟩ : ∃ i, e = .loop i := Classical.byContradiction fun hc =>
        he fun i hi => hc ⟨i, hi⟩
      subst hei
      refine ⟨i, rfl, ?_⟩
      have est : mainStep W group m (.loop i) = mainLoop W group i m := by
        unfold mainStep; rw [if_neg (by simp [hoff])]
      rw [est] at h ⊢
      cases hen : m.tl.enabled with
      | false =>
        have : mainLoop W group i m = (m, []) := by unfold mainLoop; rw [if_pos (by simp [hen])]
        rw [this] at h
        cases h
      | true =>
        have hp := head_piece W group hg m i
        cases hq : request (loopHead W group i m).2 with
        | none =>
          -- no request in the first part: then there is none at all
          exfalso
          obtain ⟨n1, n2, n3⟩ := hp.none hq
          by_cases hr : (atPoll W group m i).restart = .none
          · have := (loop_idle W group hg m i hoff hen ⟨hr, hp.inv hi, hp.off.trans hoff⟩).1
            rw [this, hq] at h
            cases h
          · have hck : (atPoll W group m i).tl.clock = m.tl.clock := hp.clock
            obtain ⟨c1, c2, c3, c4⟩ := poll_cases W group hg (atPoll W group m i) i.ack2 (hp.inv hi)
            have reqP : request (pollRestart W group i.ack2 (atPoll W group m i)).2 = none := by
              by_cases f1 : (atPoll W group m i).tl.tx = .sending
              · rw [c1 (Or.inl f1)]; rfl
              cases f2 : i.ack2 with
              | true =>
                rw [f2] at c1
                rw [c1 (Or.inr (Or.inl rfl))]; rfl
              | false =>
                rw [f2] at c2 c3 c4
                cases hd : (atPoll W group m i).sendDisc with
                | true => exact (c2 f1 rfl hr hd).2.2.2.1
                | false =>
                  cases hx : ((atPoll W group m i).timeout.expired (atPoll W group m i).tl.clock).2 with
                  | false => rw [c3 f1 rfl hr hd hx]; rfl
                  | true =>
                    rw [c4 f1 rfl hr hd hx]
                    unfold softReset MRes.then
                    dsimp only
                    rw [request_append, (flush_quiet W _).req]
                    rfl
            have q : Quiet (pollRestart W group i.ack2 (atPoll W group m i)).1
                ((irq W group i.irq4 (pollRestart W group i.ack2 (atPoll W group m i)).1).then
                  (loopTail W group i)) :=
              Quiet.then (irq_quiet W group hg _ i.irq4).1 (tail_quiet W group hg _ i)
            have e2 : (mainLoop W group i m).2 = (loopHead W group i m).2 ++
                (pollRestart W group i.ack2 (atPoll W group m i)).2 ++
                ((irq W group i.irq4 (pollRestart W group i.ack2 (atPoll W group m i)).1).then
                  (loopTail W group i)).2 := by
              unfold mainLoop
              rw [if_neg (by simp [hoff, hen])]
              unfold MRes.then atPoll
              simp
            rw [e2, request_append, request_append, hq, reqP, q.req] at h
            cases h
        | some rt' =>
          obtain ⟨s1, s2, s3, s4⟩ := hp.some rt' hq
          have hP : Pending (atPoll W group m i) rt' m.tl.clock
              (decide ((atPoll W group m i).tl.phase ≠ .closed)) :=
            ⟨s2, s1, s3, s4, by rw [show (atPoll W group m i).tl.clock = m.tl.clock from hp.clock]; omega,
              hp.inv hi, hp.off.trans hoff⟩
          obtain ⟨l1, l2, l3, l4, -⟩ := loop_pending W group hg m i hoff hen rt' m.tl.clock _ hP
          have : rt' = rt := by
            rw [l1, hq] at h
            exact Option.some.inj h
          subst this
          have hx : ((Time.Timeout.start m.tl.clock 250#32).expired m.tl.clock).2 = false := by
            rw [expired_iff _ _ (by omega) (by omega), if_neg]
            have := Time.duration_ge m.tl.clock 250
            omega
          by_cases hf : Free W group m i
          · refine ⟨?_, fun hn => absurd hf hn, fun _ => ?_⟩
            · cases hd : decide ((atPoll W group m i).tl.phase ≠ .closed) with
              | true => exact (l3 hf hd).2.1
              | false => exact (l4 hf hd hx).2
            · cases hd : decide ((atPoll W group m i).tl.phase ≠ .closed) with
              | true => exact (l3 hf hd).1
              | false => exact (l4 hf hd hx).1
          · exact ⟨(l2 hf).2, fun _ => (l2 hf).1, fun hn => absurd hn hf⟩

/-- One event without a request while a restart is pending. -/
theorem step_pending (hg : ∀ d t l, (group d t l).1.restart = d.restart) (m : Main) (e : MainEv)
    (rt : RestartType) (c : Nat) (disc : Bool) (hP : Pending m rt c disc)
    (h : request (mainStep W group m e).2 = none) :
    ((¬ ∃ i, e = .loop i ∧ Free W group m i) → Pending (mainStep W group m e).1 rt c disc ∧
      ∀ b, ¬ Resets (mainStep W group m e).2 b) ∧
    ((∃ i, e = .loop i ∧ Free W group m i) →
      (disc = true → Pending (mainStep W group m e).1 rt c false ∧
        (∀ b, ¬ Resets (mainStep W group m e).2 b) ∧
        ∃ i, e = .loop i ∧
          SendsDisconnect (mainStep W group m e).2 (atPoll W group m i).tl.connectedAddr) ∧
      (disc = false → ((Time.Timeout.start c 250#32).expired m.tl.clock).2 = false →
        Pending (mainStep W group m e).1 rt c false ∧ ∀ b, ¬ Resets (mainStep W group m e).2 b) ∧
      (disc = false → ((Time.Timeout.start c 250#32).expired m.tl.clock).2 = true →
        (∀ b, Resets (mainStep W group m e).2 b ↔ b = decide (rt = .masterIntoBootloader)) ∧
        (mainStep W group m e).1.off = some (decide (rt = .masterIntoBootloader)))) := by
  by_cases he : ∀ i, e ≠ .loop i
  · obtain ⟨-, h2, h3, -⟩ := other_events W group hg m e hP.running he
    exact ⟨fun _ => ⟨h3 _ _ _ hP, h2⟩, fun ⟨i, hi, _⟩ => absurd hi (he i)⟩
  · have ⟨i, hei⟩ : ∃ i, e = .loop i := Classical.byContradiction fun hc =>
      he fun i hi => hc ⟨i, hi⟩
    subst hei
    have est : mainStep W group m (.loop i) = mainLoop W group i m := by
      unfold mainStep; rw [if_neg (by simp [hP.running])]
    have hfr : (∃ j, MainEv.loop i = .loop j ∧ Free W group m j) ↔ Free W group m i :=
      ⟨fun ⟨j, e, hf⟩ => by cases e; exact hf, fun hf => ⟨i, rfl, hf⟩⟩
    rw [hfr]
    rw [est] at h ⊢
    cases hen : m.tl.enabled with
    | false =>
      have : mainLoop W group i m = (m, []) := by unfold mainLoop; rw [if_pos (by simp [hen])]
      rw [this]
      refine ⟨fun _ => ⟨hP, fun b hb => by cases hb⟩, fun hf => ?_⟩
      have := hf.2.2.1
      rw [hen] at this
      cases this
    | true =>
      have hp := head_piece W group hg m i
      have hq : request (loopHead W group i m).2 = none := by
        have e2 : ∃ l, (mainLoop W group i m).2 = (loopHead W group i m).2 ++ l := by
          unfold mainLoop
          rw [if_neg (by simp [hP.running, hen])]
          unfold MRes.then
          dsimp only
          rw [List.append_assoc, List.append_assoc]
          exact ⟨_, rfl⟩
        obtain ⟨l, e2⟩ := e2
        rw [e2, request_append] at h
        cases hh : request (loopHead W group i m).2 with
        | none => rfl
        | some x => rw [hh] at h; cases h
      obtain ⟨n1, n2, n3⟩ := hp.none hq
      have hP' : Pending (atPoll W group m i) rt c disc :=
        ⟨n1.trans hP.restart, hP.ne, n2.trans hP.sendDisc, n3.trans hP.timeout,
          by rw [show (atPoll W group m i).tl.clock = m.tl.clock from hp.clock]; exact hP.past,
          hp.inv hP.inv, hp.off.trans hP.running⟩
      obtain ⟨-, l2, l3, l4, l5⟩ := loop_pending W group hg m i hP.running hen rt c disc hP'
      exact ⟨l2, fun hf => ⟨fun hd => ⟨(l3 hf hd).1, (l3 hf hd).2.1, i, rfl, (l3 hf hd).2.2⟩, l4 hf, l5 hf⟩⟩

/-- One event without a request while no restart is pending. -/
theorem step_idle (hg : ∀ d t l, (group d t l).1.restart = d.restart) (m : Main) (e : MainEv)
    (hI : Idle m) (h : request (mainStep W group m e).2 = none) :
    Idle (mainStep W group m e).1 ∧ ∀ b, ¬ Resets (mainStep W group m e).2 b := by
  by_cases he : ∀ i, e ≠ .loop i
  · obtain ⟨-, h2, -, h4⟩ := other_events W group hg m e hI.running he
    exact ⟨h4 hI, h2⟩
  · have ⟨i, hei⟩ : ∃ i, e = .loop i := Classical.byContradiction fun hc =>
      he fun i hi => hc ⟨i, hi⟩
    subst hei
    have est : mainStep W group m (.loop i) = mainLoop W group i m := by
      unfold mainStep; rw [if_neg (by simp [hI.running])]
    rw [est] at h ⊢
    cases hen : m.tl.enabled with
    | false =>
      have : mainLoop W group i m = (m, []) := by unfold mainLoop; rw [if_pos (by simp [hen])]
      rw [this]
      exact ⟨hI, fun b hb => by cases hb⟩
    | true =>
      have hp := head_piece W group hg m i
      have hq : request (loopHead W group i m).2 = none := by
        have e2 : ∃ l, (mainLoop W group i m).2 = (loopHead W group i m).2 ++ l := by
          unfold mainLoop
          rw [if_neg (by simp [hI.running, hen])]
          unfold MRes.then
          dsimp only
          rw [List.append_assoc, List.append_assoc]
          exact ⟨_, rfl⟩
        obtain ⟨l, e2⟩ := e2
        rw [e2, request_append] at h
        cases hh : request (loopHead W group i m).2 with
        | none => rfl
        | some x => rw [hh] at h; cases h
      obtain ⟨n1, -, -⟩ := hp.none hq
      obtain ⟨-, h2, h3⟩ := loop_idle W group hg m i hI.running hen
        ⟨n1.trans hI.restart, hp.inv hI.inv, hp.off.trans hI.running⟩
      exact ⟨h2, h3⟩

/-- A history without a request while a restart is pending. -/
theorem run_pending (hg : ∀ d t l, (group d t l).1.restart = d.restart) (m : Main) (es : List MainEv)
    (rt : RestartType) (c : Nat) (disc : Bool) (hP : Pending m rt c disc)
    (h : request (mainRun W group m es).2 = none) (hoff : (mainRun W group m es).1.off = none) :
    (¬ SomeFree W group m es → Pending (mainRun W group m es).1 rt c disc) ∧
    (SomeFree W group m es → Pending (mainRun W group m es).1 rt c false) := by
  induction es generalizing m disc with
  | nil => exact ⟨fun _ => hP, fun hf => hf.elim⟩
  | cons e es ih =>
    rw [run_cons] at h hoff ⊢
    unfold MRes.then at h hoff ⊢
    dsimp only at h hoff ⊢
    rw [request_append] at h
    have h1 : request (mainStep W group m e).2 = none := by
      cases hh : request (mainStep W group m e).2 with
      | none => rfl
      | some x => rw [hh] at h; cases h
    have h2 : request (mainRun W group (mainStep W group m e).1 es).2 = none := by
      rw [h1] at h; exact h
    obtain ⟨p1, p2⟩ := step_pending W group hg m e rt c disc hP h1
    have hrun : (mainStep W group m e).1.off = none := by
      cases ho : (mainStep W group m e).1.off with
      | none => rfl
      | some b => rw [run_off W group _ es (by simp [ho]), ho] at hoff; cases hoff
    by_cases hf : ∃ i, e = .loop i ∧ Free W group m i
    · have hP' : Pending (mainStep W group m e).1 rt c false := by
        obtain ⟨q1, q2, q3⟩ := p2 hf
        cases hd : disc with
        | true => exact (q1 hd).1
        | false =>
          cases hx : ((Time.Timeout.start c 250#32).expired m.tl.clock).2 with
          | false => exact (q2 hd hx).1
          | true => have := (q3 hd hx).2; rw [hrun] at this; cases this
      obtain ⟨i1, i2⟩ := ih _ false hP' h2 hoff
      refine ⟨fun hn => absurd (Or.inl hf) hn, fun _ => ?_⟩
      by_cases hs : SomeFree W group (mainStep W group m e).1 es
      · exact i2 hs
      · exact i1 hs
    · obtain ⟨i1, i2⟩ := ih _ disc (p1 hf).1 h2 hoff
      exact ⟨fun hn => i1 fun hs => hn (Or.inr hs), fun hs => i2 (hs.resolve_left hf)⟩

/-- After any history the transport layer is in a consistent state. -/
theorem run_inv (hg : ∀ d t l, (group d t l).1.restart = d.restart) (m : Main) (es : List MainEv)
    (h : Idle m ∨ ∃ rt c disc, Pending m rt c disc) :
    (mainRun W group m es).1.off.isSome = true ∨ Idle (mainRun W group m es).1 ∨
      ∃ rt c disc, Pending (mainRun W group m es).1 rt c disc := by
  induction es generalizing m with
  | nil => exact Or.inr h
  | cons e es ih =>
    rw [run_cons]
    show (mainRun W group (mainStep W group m e).1 es).1.off.isSome = true ∨ _
    have hi : TL4.Inv m.tl := by
      rcases h with h | ⟨rt, c, disc, h⟩
      · exact h.inv
      · exact h.inv
    cases hr : request (mainStep W group m e).2 with
    | some rt =>
      obtain ⟨i, -, -, p1, p2⟩ := step_request W group hg m e rt hi hr
      apply ih
      right
      by_cases hf : Free W group m i
      · exact ⟨_, _, _, p2 hf⟩
      · exact ⟨_, _, _, p1 hf⟩
    | none =>
      rcases h with h | ⟨rt, c, disc, h⟩
      · exact ih _ (Or.inl (step_idle W group hg m e h hr).1)
      · obtain ⟨p1, p2⟩ := step_pending W group hg m e rt c disc h hr
        by_cases hf : ∃ i, e = .loop i ∧ Free W group m i
        · obtain ⟨q1, q2, q3⟩ := p2 hf
          cases hd : disc with
          | true => exact ih _ (Or.inr ⟨_, _, _, (q1 hd).1⟩)
          | false =>
            cases hx : ((Time.Timeout.start c 250#32).expired m.tl.clock).2 with
            | false => exact ih _ (Or.inr ⟨_, _, _, (q2 hd hx).1⟩)
            | true =>
              left
              have := (q3 hd hx).2
              rw [run_off W group _ es (by rw [this]; rfl), this]
              rfl
        · exact ih _ (Or.inr ⟨_, _, _, (p1 hf).1⟩)

theorem begin_idle (own : Word) (clock : Nat) (d : Dev) (deb : Time.Debouncer) (flash : Nat → Byte)
    (led : Bool) : Idle (Main.begin (TL4.init own clock d) deb flash led) :=
  ⟨rfl, TL4.inv_init own clock d, rfl⟩

/-- **C62.** A reset only follows a request: for every device and every history of it since it was
started, if an event resets the processor, then a loop before it executed the service of a telegram that
asks for a restart, at least 250 ms earlier; no later telegram asked for a restart, and the reset goes into
the bootloader exactly if this telegram asked for that. -/
theorem C62_only_on_request (hg : ∀ d t l, (group d t l).1.restart = d.restart) (own : Word)
    (clock : Nat) (d : Dev) (deb : Time.Debouncer) (flash : Nat → Byte) (led : Bool)
    (es : List MainEv) (e : MainEv) (b : Bool) (m0 m : Main)
    (h0 : m0 = Main.begin (TL4.init own clock d) deb flash led)
    (hm : m = (mainRun W group m0 es).1) (h : Resets (mainStep W group m e).2 b) :
    ∃ pre i post rt, es = pre ++ .loop i :: post ∧
      request (mainStep W group (mainRun W group m0 pre).1 (.loop i)).2 = some rt ∧
      request (mainRun W group (mainStep W group (mainRun W group m0 pre).1 (.loop i)).1 post).2 = none ∧
      b = decide (rt = .masterIntoBootloader) ∧
      (mainRun W group m0 pre).1.tl.clock + 250 ≤ m.tl.clock := by
  have key : ∀ es, (mainRun W group m0 es).1.off.isSome = true ∨ Idle (mainRun W group m0 es).1 ∨
      ∃ pre i post rt disc, es = pre ++ .loop i :: post ∧
      request (mainStep W group (mainRun W group m0 pre).1 (.loop i)).2 = some rt ∧
      request (mainRun W group (mainStep W group (mainRun W group m0 pre).1 (.loop i)).1 post).2 = none ∧
      Pending (mainRun W group m0 es).1 rt (mainRun W group m0 pre).1.tl.clock disc := by
    apply Time.rev_ind
    · right; left
      rw [h0]
      exact begin_idle own clock d deb flash led
    · intro es e ih
      have er : mainRun W group m0 (es ++ [e]) =
          (mainRun W group m0 es).then (mainStep W group · e) := by
        rw [run_append]
        unfold MRes.then
        dsimp only
        rw [run_cons]
        unfold MRes.then
        dsimp only
        have : ∀ x : Main, mainRun W group x [] = (x, []) := fun _ => rfl
        rw [this, List.append_nil]
      have er1 : (mainRun W group m0 (es ++ [e])).1 =
          (mainStep W group (mainRun W group m0 es).1 e).1 := by rw [er]; rfl
      rw [er1]
      by_cases hoff : (mainRun W group m0 es).1.off.isSome = true
      · left
        rw [step_off W group _ e hoff]
        exact hoff
      have hlive := ih.resolve_left hoff
      have hi : TL4.Inv (mainRun W group m0 es).1.tl := by
        rcases hlive with h | ⟨_, _, _, _, _, _, _, _, h⟩
        · exact h.inv
        · exact h.inv
      cases hr : request (mainStep W group (mainRun W group m0 es).1 e).2 with
      | some rt =>
        obtain ⟨i, rfl, -, p1, p2⟩ := step_request W group hg _ e rt hi hr
        right; right
        by_cases hf : Free W group (mainRun W group m0 es).1 i
        · exact ⟨es, i, [], rt, _, rfl, hr, rfl, p2 hf⟩
        · exact ⟨es, i, [], rt, _, rfl, hr, rfl, p1 hf⟩
      | none =>
        rcases hlive with h | ⟨pre, i, post, rt, disc, e1, e2, e3, h⟩
        · exact Or.inr (Or.inl (step_idle W group hg _ e h hr).1)
        · obtain ⟨p1, p2⟩ := step_pending W group hg _ e rt _ disc h hr
          have done : ∀ disc', Pending (mainStep W group (mainRun W group m0 es).1 e).1 rt
              (mainRun W group m0 pre).1.tl.clock disc' →
              ∃ pre i post rt disc, es ++ [e] = pre ++ .loop i :: post ∧
              request (mainStep W group (mainRun W group m0 pre).1 (.loop i)).2 = some rt ∧
              request (mainRun W group (mainStep W group (mainRun W group m0 pre).1 (.loop i)).1 post).2
                = none ∧
              Pending (mainStep W group (mainRun W group m0 es).1 e).1 rt
                (mainRun W group m0 pre).1.tl.clock disc := by
            intro disc' hP
            refine ⟨pre, i, post ++ [e], rt, disc', by rw [e1]; simp, e2, ?_, hP⟩
            have e4 : (mainRun W group m0 es).1 =
                (mainRun W group (mainStep W group (mainRun W group m0 pre).1 (.loop i)).1 post).1 := by
              rw [e1, run_append]
              unfold MRes.then
              dsimp only
              rw [run_cons]
              rfl
            rw [run_append]
            unfold MRes.then
            dsimp only
            rw [request_append, e3, run_cons, ← e4]
            unfold MRes.then
            dsimp only
            rw [request_append, hr]
            rfl
          by_cases hf : ∃ i, e = .loop i ∧ Free W group (mainRun W group m0 es).1 i
          · obtain ⟨q1, q2, q3⟩ := p2 hf
            cases hd : disc with
            | true => exact Or.inr (Or.inr (done _ (q1 hd).1))
            | false =>
              cases hx : ((Time.Timeout.start (mainRun W group m0 pre).1.tl.clock 250#32).expired
                  (mainRun W group m0 es).1.tl.clock).2 with
              | false => exact Or.inr (Or.inr (done _ (q2 hd hx).1))
              | true =>
                left
                rw [(q3 hd hx).2]
                rfl
          · exact Or.inr (Or.inr (done _ (p1 hf).1))
  have hk := key es
  rw [← hm] at hk
  by_cases hoff : m.off.isSome = true
  · rw [step_off W group m e hoff] at h
    cases h
  have hlive := hk.resolve_left hoff
  have hi : TL4.Inv m.tl := by
    rcases hlive with h | ⟨_, _, _, _, _, _, _, _, h⟩
    · exact h.inv
    · exact h.inv
  cases hr : request (mainStep W group m e).2 with
  | some rt =>
    obtain ⟨i, -, hn, -, -⟩ := step_request W group hg _ e rt hi hr
    exact absurd h (hn b)
  | none =>
    rcases hlive with hI | ⟨pre, i, post, rt, disc, e1, e2, e3, hP⟩
    · exact absurd h ((step_idle W group hg _ e hI hr).2 b)
    · refine ⟨pre, i, post, rt, e1, e2, e3, ?_⟩
      obtain ⟨p1, p2⟩ := step_pending W group hg _ e rt _ disc hP hr
      by_cases hf : ∃ i, e = .loop i ∧ Free W group m i
      · obtain ⟨q1, q2, q3⟩ := p2 hf
        cases hd : disc with
        | true => exact absurd h ((q1 hd).2.1 b)
        | false =>
          cases hx : ((Time.Timeout.start (mainRun W group m0 pre).1.tl.clock 250#32).expired
              m.tl.clock).2 with
          | false => exact absurd h ((q2 hd hx).2 b)
          | true =>
            exact ⟨((q3 hd hx).1 b).mp h, expired_not_early _ _ hP.past hx⟩
      · exact absurd h ((p1 hf).2 b)

/-- **C62.** What becomes of a request, exactly.  A loop executed the service of a telegram that asks for
a restart, no later telegram has asked for one, and the device is still running.  Consider a loop `j`
that finds nothing being sent when it looks at the pending restart (and brings no new request), less
than 2^31 ms after the request.

If a connection was open when the restart was requested and `j` is the first such loop, it sends
a T_DISCONNECT to the partner of the connection and does not reset.  In all other cases it resets if 250 ms
(251 if the counter would show 0 at the end) have passed since the request, into the bootloader if
this was asked for, and does not reset otherwise. -/
theorem C62_restart_exact (hg : ∀ d t l, (group d t l).1.restart = d.restart) (own : Word)
    (clock : Nat) (d : Dev) (deb : Time.Debouncer) (flash : Nat → Byte) (led : Bool)
    (pre post : List MainEv) (i j : In) (rt : RestartType) (m0 m1 m : Main)
    (h0 : m0 = Main.begin (TL4.init own clock d) deb flash led)
    (h1 : m1 = (mainRun W group m0 pre).1)
    (hm : m = (mainRun W group m1 (.loop i :: post)).1)
    (hreq : request (mainStep W group m1 (.loop i)).2 = some rt)
    (hpost : request (mainRun W group (mainStep W group m1 (.loop i)).1 post).2 = none)
    (hj : request (mainStep W group m (.loop j)).2 = none)
    (hfree : Free W group m j) (hclock : m.tl.clock < m1.tl.clock + 2 ^ 31) :
    (((atPoll W group m1 i).tl.phase ≠ .closed ∧ ¬ SomeFree W group m1 (.loop i :: post)) →
      SendsDisconnect (mainStep W group m (.loop j)).2 (atPoll W group m j).tl.connectedAddr ∧
      ∀ b, ¬ Resets (mainStep W group m (.loop j)).2 b) ∧
    (((atPoll W group m1 i).tl.phase = .closed ∨ SomeFree W group m1 (.loop i :: post)) →
      ∀ b, Resets (mainStep W group m (.loop j)).2 b ↔
        b = decide (rt = .masterIntoBootloader) ∧
        m1.tl.clock + Time.duration m1.tl.clock 250 ≤ m.tl.clock) := by
  have hoff : m.off = none := hfree.2.2.2
  have hi : TL4.Inv m1.tl := by
    rcases run_inv W group hg m0 pre (Or.inl (by rw [h0]; exact begin_idle own clock d deb flash led))
      with h | h | ⟨_, _, _, h⟩
    · rw [← h1] at h
      rw [step_off W group m1 _ h] at hreq
      cases hreq
    · rw [h1]; exact h.inv
    · rw [h1]; exact h.inv
  have em : m = (mainRun W group (mainStep W group m1 (.loop i)).1 post).1 := hm
  obtain ⟨i', ei, -, p1, p2⟩ := step_request W group hg m1 (.loop i) rt hi hreq
  cases ei
  have hmain : ∀ disc, Pending m rt m1.tl.clock disc →
      (disc = true →
        SendsDisconnect (mainStep W group m (.loop j)).2 (atPoll W group m j).tl.connectedAddr ∧
        ∀ b, ¬ Resets (mainStep W group m (.loop j)).2 b) ∧
      (disc = false → ∀ b, Resets (mainStep W group m (.loop j)).2 b ↔
        b = decide (rt = .masterIntoBootloader) ∧
        m1.tl.clock + Time.duration m1.tl.clock 250 ≤ m.tl.clock) := by
    intro disc hP
    obtain ⟨-, s2⟩ := step_pending W group hg m (.loop j) rt _ disc hP hj
    obtain ⟨q1, q2, q3⟩ := s2 ⟨j, rfl, hfree⟩
    refine ⟨fun hd => ?_, fun hd b => ?_⟩
    · obtain ⟨-, a2, j', ej, a3⟩ := q1 hd
      cases ej
      exact ⟨a3, a2⟩
    · have hx := expired_iff m1.tl.clock m.tl.clock hP.past hclock
      by_cases hle : m1.tl.clock + Time.duration m1.tl.clock 250 ≤ m.tl.clock
      · rw [if_pos hle] at hx
        rw [(q3 hd (by rw [hx])).1 b]
        exact ⟨fun h => ⟨h, hle⟩, fun h => h.1⟩
      · rw [if_neg hle] at hx
        exact ⟨fun h => absurd h ((q2 hd (by rw [hx])).2 b), fun h => absurd h.2 hle⟩
  have hpo : request (mainRun W group (mainStep W group m1 (.loop i)).1 post).2 = none := hpost
  have hoff' : (mainRun W group (mainStep W group m1 (.loop i)).1 post).1.off = none := by
    rw [← em]; exact hoff
  refine ⟨?_, ?_⟩
  · rintro ⟨hph, hnf⟩
    have hnf1 : ¬ Free W group m1 i := fun hf => hnf (Or.inl ⟨i, rfl, hf⟩)
    have hP := p1 hnf1
    rw [decide_eq_true hph] at hP
    have := (run_pending W group hg _ post rt _ true hP hpo hoff').1 (fun hs => hnf (Or.inr hs))
    rw [← em] at this
    exact (hmain true this).1 rfl
  · intro hcase
    have hP : Pending m rt m1.tl.clock false := by
      rw [em]
      by_cases hf : Free W group m1 i
      · have hP := p2 hf
        obtain ⟨r1, r2⟩ := run_pending W group hg _ post rt _ false hP hpo hoff'
        by_cases hs : SomeFree W group (mainStep W group m1 (.loop i)).1 post
        · exact r2 hs
        · exact r1 hs
      · have hP := p1 hf
        obtain ⟨r1, r2⟩ := run_pending W group hg _ post rt _ _ hP hpo hoff'
        by_cases hs : SomeFree W group (mainStep W group m1 (.loop i)).1 post
        · exact r2 hs
        · have := r1 hs
          rcases hcase with hc | hc
          · rw [decide_eq_false (fun hne => hne hc)] at this
            exact this
          · rcases hc with ⟨i', ei, hf'⟩ | hc
            · cases ei; exact absurd hf' hf
            · exact absurd hc hs
    exact (hmain false hP).2 rfl

/-! ## What is saved -/

theorem tlOp_flash (m : Main) (op : TL4.Op) : (tlOp W group m op).1.flash = m.flash := by
  unfold tlOp
  dsimp only
  split <;> rfl

theorem head_flash (m : Main) (i : In) : (loopHead W group i m).1.flash = m.flash := by
  have hirq : ∀ x p, (irq W group x p).1.flash = p.flash := by
    intro x p
    unfold irq
    cases x
    · rfl
    · exact tlOp_flash W group p _
  have hrx : ∀ x a p, (receive W group x a p).1.flash = p.flash := by
    intro x a p
    unfold receive
    cases x
    · rfl
    · dsimp only
      split
      · exact tlOp_flash W group p _
      · rfl
  unfold loopHead MRes.then
  dsimp only
  rw [hirq]
  show (receive W group i.rx i.ack1 _).1.flash = _
  rw [hrx, hirq, tlOp_flash, hirq]

theorem saved_aux (hg : ∀ d t l, (group d t l).1.restart = d.restart) (m : Main) (i : In) (b : Bool)
    (hi : TL4.Inv m.tl) (h : Resets (mainStep W group m (.loop i)).2 b) :
    let p := (atPoll W group m i).tl.app
    let r := mainStep W group m (.loop i)
    (p.eeModified = true → r.1.flash = p.ee ∧ ∃ x y, r.2 = x ++ .save p.ee :: .reset b :: y) ∧
    (p.eeModified = false → r.1.flash = m.flash) ∧
    r.1.tl.app.eeModified = false ∧ r.1.tl.app.ee = p.ee ∧
    r.1.tl.app.mapper = p.mapper.map (MemMap.doFlash W.E W.mc) := by
  dsimp only
  cases hoff : m.off with
  | some x =>
    rw [step_off W group m _ (by simp [hoff])] at h
    cases h
  | none =>
    have est : mainStep W group m (.loop i) = mainLoop W group i m := by
      unfold mainStep; rw [if_neg (by simp [hoff])]
    rw [est] at h ⊢
    cases hen : m.tl.enabled with
    | false =>
      have : mainLoop W group i m = (m, []) := by unfold mainLoop; rw [if_pos (by simp [hen])]
      rw [this] at h
      cases h
    | true =>
      have hp := head_piece W group hg m i
      have hhf := head_flash W group m i
      obtain ⟨c1, c2, c3, c4⟩ := poll_cases W group hg (atPoll W group m i) i.ack2 (hp.inv hi)
      have e2 : mainLoop W group i m = (((irq W group i.irq4
          (pollRestart W group i.ack2 (atPoll W group m i)).1).then (loopTail W group i)).1,
          (loopHead W group i m).2 ++ (pollRestart W group i.ack2 (atPoll W group m i)).2 ++
          ((irq W group i.irq4 (pollRestart W group i.ack2 (atPoll W group m i)).1).then
            (loopTail W group i)).2) := by
        unfold mainLoop
        rw [if_neg (by simp [hoff, hen])]
        unfold MRes.then atPoll
        simp
      have q : Quiet (pollRestart W group i.ack2 (atPoll W group m i)).1
          ((irq W group i.irq4 (pollRestart W group i.ack2 (atPoll W group m i)).1).then
            (loopTail W group i)) :=
        Quiet.then (irq_quiet W group hg _ i.irq4).1 (tail_quiet W group hg _ i)
      -- the reset comes from the restart part
      have hin : MainOut.reset b ∈ (pollRestart W group i.ack2 (atPoll W group m i)).2 := by
        unfold Resets at h
        rw [e2] at h
        rcases List.mem_append.mp h with h | h
        · rcases List.mem_append.mp h with h | h
          · exact absurd h (hp.nores b)
          · exact h
        · exact absurd h (q.nores b)
      have hP : pollRestart W group i.ack2 (atPoll W group m i) = softReset W { atPoll W group m i with
          timeout := ((atPoll W group m i).timeout.expired (atPoll W group m i).tl.clock).1 } := by
        by_cases f1 : (atPoll W group m i).tl.tx = .sending
        · rw [c1 (Or.inl f1)] at hin; cases hin
        cases f2 : i.ack2 with
        | true =>
          rw [f2] at c1 hin
          rw [c1 (Or.inr (Or.inl rfl))] at hin; cases hin
        | false =>
          rw [f2] at c1 c2 c3 c4 hin
          by_cases hr : (atPoll W group m i).restart = .none
          · rw [c1 (Or.inr (Or.inr hr))] at hin; cases hin
          cases hd : (atPoll W group m i).sendDisc with
          | true => exact absurd hin ((c2 f1 rfl hr hd).2.2.2.2.2.2.2.1 b)
          | false =>
            cases hx : ((atPoll W group m i).timeout.expired (atPoll W group m i).tl.clock).2 with
            | false => rw [c3 f1 rfl hr hd hx] at hin; cases hin
            | true => exact c4 f1 rfl hr hd hx
      generalize hM : ({ atPoll W group m i with
          timeout := ((atPoll W group m i).timeout.expired (atPoll W group m i).tl.clock).1 } : Main) = M
        at hP
      have hMa : M.tl.app = (atPoll W group m i).tl.app := by rw [← hM]
      have hMf : M.flash = m.flash := by rw [← hM]; exact hhf
      have hb : b = decide (M.restart = .masterIntoBootloader) := by
        rw [hP] at hin
        unfold softReset MRes.then at hin
        rcases List.mem_append.mp hin with hin | hin
        · exact absurd hin ((flush_quiet W M).nores b)
        · simpa using hin
      have hirq : ∀ x p, (irq W group x p).1.flash = p.flash ∧
          (irq W group x p).1.tl.app.eeModified = p.tl.app.eeModified ∧
          (irq W group x p).1.tl.app.ee = p.tl.app.ee ∧
          (irq W group x p).1.tl.app.mapper = p.tl.app.mapper ∧ (irq W group x p).1.off = p.off := by
        intro x p
        unfold irq
        cases x with
        | none => exact ⟨rfl, rfl, rfl, rfl, rfl⟩
        | some ok =>
          have ha : (sysStep W group { p.tl with app := { p.tl.app with restart := .none } }
              (.tl (.txDone ok))).1.app = { p.tl.app with restart := .none } := by
            unfold sysStep
            dsimp only
            rcases step_app (app W group) { p.tl with app := { p.tl.app with restart := .none } }
              (.txDone ok) with h | ⟨_, _, h, _⟩
            · exact h
            · cases h
          refine ⟨tlOp_flash W group p _, ?_, ?_, ?_, (tlOp_all W group hg p (.txDone ok)).2.1⟩
          all_goals
            unfold tlOp
            dsimp only
            rw [ha]
            split <;> (dsimp only; rw [ha])
      have htail : ∀ p : Main, p.off.isSome = true → loopTail W group i p = (p, []) := by
        intro p hp
        unfold loopTail
        rw [if_pos (by simp [hp])]
      have hlast : ((irq W group i.irq4 (pollRestart W group i.ack2 (atPoll W group m i)).1).then
          (loopTail W group i)).1 =
          (irq W group i.irq4 (pollRestart W group i.ack2 (atPoll W group m i)).1).1 := by
        unfold MRes.then
        dsimp only
        rw [htail]
        rw [(hirq _ _).2.2.2.2, hP]
        rfl
      rw [e2]
      dsimp only
      rw [hlast]
      generalize ((irq W group i.irq4 (pollRestart W group i.ack2 (atPoll W group m i)).1).then
        (loopTail W group i)).2 = Y
      obtain ⟨r1, r2, r3, r4, -⟩ := hirq i.irq4 (pollRestart W group i.ack2 (atPoll W group m i)).1
      rw [r1, r2, r3, r4, hP, ← hMa, ← hMf, hb]
      unfold softReset flush MRes.then
      dsimp only
      cases hmod : M.tl.app.eeModified with
      | true =>
        refine ⟨fun _ => ⟨rfl, ?_⟩, fun h => absurd h (by decide), rfl, rfl, rfl⟩
        refine ⟨(loopHead W group i m).2, Y, ?_⟩
        rw [List.append_assoc]
        rfl
      | false => exact ⟨fun h => absurd h (by decide), fun _ => rfl, rfl, rfl, rfl⟩

/-- **C62.** Nothing is lost: in the loop that resets, all changes of the EEPROM that are marked for saving
are written to the flash before the reset (and only then it is written), and so is the cached page of the
virtual memory. -/
theorem C62_saved (hg : ∀ d t l, (group d t l).1.restart = d.restart) (own : Word)
    (clock : Nat) (d : Dev) (deb : Time.Debouncer) (flash : Nat → Byte) (led : Bool)
    (es : List MainEv) (i : In) (b : Bool) (m : Main)
    (hm : m = (mainRun W group (Main.begin (TL4.init own clock d) deb flash led) es).1)
    (h : Resets (mainStep W group m (.loop i)).2 b) :
    let p := (atPoll W group m i).tl.app
    let r := mainStep W group m (.loop i)
    (p.eeModified = true → r.1.flash = p.ee ∧ ∃ x y, r.2 = x ++ .save p.ee :: .reset b :: y) ∧
    (p.eeModified = false → r.1.flash = m.flash) ∧
    r.1.tl.app.eeModified = false ∧ r.1.tl.app.ee = p.ee ∧
    r.1.tl.app.mapper = p.mapper.map (MemMap.doFlash W.E W.mc) := by
  rcases run_inv W group hg _ es (Or.inl (begin_idle own clock d deb flash led)) with hx | hx | ⟨_, _, _, hx⟩
  · rw [← hm] at hx
    rw [step_off W group m _ hx] at h
    cases h
  · exact saved_aux W group hg m i b (by rw [hm]; exact hx.inv) h
  · exact saved_aux W group hg m i b (by rw [hm]; exact hx.inv) h

/-! ## The answer to a master reset -/

/-- The answer of a device to a telegram, if its service gives one: error code and process time of
A_Restart_Response (bytes 8 … 10). -/
def restartAnswer (W : World) (d : Dev) (t : Buf) (l : Nat) (sb : Buf) : Option (Byte × Byte × Byte) :=
  if (processApci W d t l sb).2.2 = true ∧ apciCommand (processApci W d t l sb).2.1 = 0x3A1#16 then
    some ((processApci W d t l sb).2.1 8, (processApci W d t l sb).2.1 9, (processApci W d t l sb).2.1 10)
  else none

theorem answer_eq (d : Dev) (t : Buf) (l : Nat) (sb : Buf) (h : apciCommand t = 0x381#16) :
    restartAnswer W d t l sb = some
      (if (t 8 = 7#8 ∧ t 9 = 255#8) ∨ t 8 = 1#8 then (0#8, 0#8, 1#8) else (2#8, 0#8, 0#8)) := by
  have e : processApci W d t l sb = masterReset d (t 8) (t 9) sb := by
    unfold processApci bcu2Apci defaultApci
    rw [h]
    split <;> rfl
  unfold restartAnswer
  rw [e]
  have hc : ∀ (rt : Byte) (x : Byte), apciCommand (upd (upd (upd (setApciCommand (upd sb 5 0x64#8)
      0x3A1#16 0#8) 8 rt) 9 0#8) 10 x) = 0x3A1#16 := by
    intro rt x
    show apciCommand _ = _
    unfold apciCommand setApciCommand
    simp [upd]
    decide
  unfold masterReset
  dsimp only
  rw [hc, if_pos ⟨rfl, rfl⟩]
  have h8 : ∀ (b : Buf) (x y : Byte), upd (upd (upd b 8 x) 9 0#8) 10 y 8 = x ∧
      upd (upd (upd b 8 x) 9 0#8) 10 y 9 = 0#8 ∧ upd (upd (upd b 8 x) 9 0#8) 10 y 10 = y := by
    intro b x y; simp [upd]
  rw [(h8 _ _ _).1, (h8 _ _ _).2.1, (h8 _ _ _).2.2]
  by_cases h1 : t 8 = 7#8 ∧ t 9 = 255#8
  · rw [if_pos h1, if_pos (Or.inl h1)]; rfl
  · rw [if_neg h1]
    by_cases h2 : t 8 = 0#8 ∨ 7 < (t 8).toNat
    · have h3 : t 8 ≠ 1#8 := by
        rcases h2 with h2 | h2
        · rw [h2]; decide
        · intro hc; rw [hc] at h2; revert h2; decide
      have h4 : ¬ ((t 8 = 7#8 ∧ t 9 = 255#8) ∨ t 8 = 1#8) := fun hc => hc.elim h1 h3
      rw [if_pos h2, if_neg h4]
      rfl
    · rw [if_neg h2]
      by_cases h3 : t 8 = 1#8
      · rw [if_pos h3, if_pos (Or.inr h3)]; rfl
      · have h4 : ¬ ((t 8 = 7#8 ∧ t 9 = 255#8) ∨ t 8 = 1#8) := fun hc => hc.elim h1 h3
        rw [if_neg h3, if_neg h4]
        rfl

/-- **C62** (partial; missing: erase codes 2 … 7 other than the request for the bootloader, see
`C62_refused_but_restarts`).  The answer to a master reset tells what will happen: it is positive (error 0,
one second) exactly if the device is going to restart. -/
theorem C62_answer_partial (d : Dev) (t : Buf) (l : Nat) (sb : Buf) (h : apciCommand t = 0x381#16)
    (he : (t 8).toNat ≤ 1 ∨ 7 < (t 8).toNat ∨ (t 8 = 7#8 ∧ t 9 = 255#8)) :
    (restartAnswer W d t l sb = some (0#8, 0#8, 1#8) ∧ restartWanted t ≠ none) ∨
    (restartAnswer W d t l sb = some (2#8, 0#8, 0#8) ∧ restartWanted t = none) := by
  rw [answer_eq W d t l sb h]
  have hw : restartWanted t = if t 8 = 7#8 ∧ t 9 = 255#8 then some .masterIntoBootloader
      else if 1 ≤ (t 8).toNat ∧ (t 8).toNat ≤ 7 then some .master else none := by
    unfold restartWanted
    rw [if_neg (by rw [h]; decide), if_pos h]
  rw [hw]
  by_cases h1 : t 8 = 7#8 ∧ t 9 = 255#8
  · left; rw [if_pos h1, if_pos (Or.inl h1)]; exact ⟨rfl, by simp⟩
  · rw [if_neg h1]
    by_cases h2 : t 8 = 1#8
    · left
      rw [if_pos (Or.inr h2), if_pos (by rw [h2]; decide)]
      exact ⟨rfl, by simp⟩
    · right
      have h3 : (t 8).toNat ≠ 1 := fun hc => h2 (BitVec.eq_of_toNat_eq hc)
      rw [if_neg (fun hc => hc.elim h1 h2), if_neg]
      · exact ⟨rfl, rfl⟩
      · rcases he with he | he | he
        · omega
        · omega
        · exact absurd he h1

/-- **C62, finding.** A master reset with erase code 2 … 7 (other than the request for the bootloader) is
answered negatively ("unsupported erase code"), but the device restarts nevertheless. -/
theorem C62_refused_but_restarts (d : Dev) (t : Buf) (l : Nat) (sb : Buf)
    (h : apciCommand t = 0x381#16) (he : 2 ≤ (t 8).toNat ∧ (t 8).toNat ≤ 7)
    (hb : ¬ (t 8 = 7#8 ∧ t 9 = 255#8)) :
    restartAnswer W d t l sb = some (2#8, 0#8, 0#8) ∧ restartWanted t = some .master := by
  rw [answer_eq W d t l sb h, if_neg]
  · refine ⟨rfl, ?_⟩
    unfold restartWanted
    rw [if_neg (by rw [h]; decide), if_pos h, if_neg hb, if_pos ⟨by omega, he.2⟩]
  · rintro (hc | hc)
    · exact hb hc
    · rw [hc] at he; revert he; decide

end

/-! ## The hypotheses are met -/

/-- Telegrams from 1.1.254 to the example device (0x1701 in its EEPROM is not used: own address 1.1.5). -/
def exFrom (l : List Byte) : Buf := fun i =>
  ([0xb0#8, 0x11#8, 0xfe#8, 0x11#8, 0x05#8, 0x61#8] ++ l).getD i 0#8

/-- The example device with own address 1.1.5. -/
def ex62 : Main := Main.begin (TL4.init 0x1105#16 0 { exDev with ownAddr := 0x1105#16, eeModified := true })
  ⟨0#32, 0, 1⟩ (fun _ => 0xff#8) true

/-- A loop that finds this telegram. -/
def exRx (t : Buf) : MainEv := .loop { rx := some (t, 9), pin := 1, grp := none }

/-- A loop that finds nothing. -/
def exLoop : In := { rx := none, pin := 1, grp := none }

/-- T_CONNECT; A_Restart with sequence number 0; end of the transmission of the T_ACK. -/
def exPre : List MainEv := [exRx (exFrom [0x80#8])]
def exReqIn : In := { rx := some (exFrom [0x43#8, 0x80#8], 9), pin := 1, grp := none }
def exM1 : Main := (mainRun exWorld exGroup ex62 exPre).1
def exPost1 : List MainEv := [.txDone true]
def exPost2 : List MainEv := [.txDone true, .loop exLoop, .txDone true, .advance 250]

/-- The request is executed over the connection; the first loop after the T_ACK has been sent sends the
T_DISCONNECT. -/
example : SendsDisconnect (mainStep exWorld exGroup
    (mainRun exWorld exGroup exM1 (.loop exReqIn :: exPost1)).1 (.loop exLoop)).2 0x11FE#16 := by
  have h := C62_restart_exact exWorld exGroup (fun _ _ _ => rfl) 0x1105#16 0 _ ⟨0#32, 0, 1⟩
    (fun _ => 0xff#8) true exPre exPost1 exReqIn exLoop .basic ex62 exM1 _ rfl rfl rfl
    (by decide +kernel) (by decide +kernel) (by decide +kernel)
    ⟨by decide +kernel, rfl, by decide +kernel, by decide +kernel⟩ (by decide +kernel)
  refine (h.1 ⟨by decide +kernel, ?_⟩).1
  rintro (⟨i, e, hf⟩ | (⟨i, e, hf⟩ | hf))
  · cases e
    exact hf.1 (by decide +kernel)
  · cases e
  · exact hf

/-- 250 ms later the device is reset, not into the bootloader, and the EEPROM was saved before. -/
example : Resets (mainStep exWorld exGroup
      (mainRun exWorld exGroup exM1 (.loop exReqIn :: exPost2)).1 (.loop exLoop)).2 false ∧
    (mainStep exWorld exGroup
      (mainRun exWorld exGroup exM1 (.loop exReqIn :: exPost2)).1 (.loop exLoop)).1.flash 5 = 5#8 := by
  have h := C62_restart_exact exWorld exGroup (fun _ _ _ => rfl) 0x1105#16 0 _ ⟨0#32, 0, 1⟩
    (fun _ => 0xff#8) true exPre exPost2 exReqIn exLoop .basic ex62 exM1 _ rfl rfl rfl
    (by decide +kernel) (by decide +kernel) (by decide +kernel)
    ⟨by decide +kernel, rfl, by decide +kernel, by decide +kernel⟩ (by decide +kernel)
  refine ⟨(h.2 (Or.inr ?_) false).mpr ⟨rfl, by decide +kernel⟩, by decide +kernel⟩
  exact Or.inr (Or.inr (Or.inl ⟨exLoop, rfl, by decide +kernel, rfl, by decide +kernel, by decide +kernel⟩))

/-- The hypothesis about group telegrams holds here, and the loop that resets is covered by the theorem
about saving. -/
example : ∃ b, Resets (mainStep exWorld exGroup
    (mainRun exWorld exGroup exM1 (.loop exReqIn :: exPost2)).1 (.loop exLoop)).2 b ∧
    (atPoll exWorld exGroup (mainRun exWorld exGroup ex62 exPre).1 exReqIn).tl.app.eeModified = true := by
  refine ⟨false, ?_, by decide +kernel⟩
  unfold Resets
  have : (mainStep exWorld exGroup
    (mainRun exWorld exGroup exM1 (.loop exReqIn :: exPost2)).1 (.loop exLoop)).2.any
      (fun o => match o with | .reset false => true | _ => false) = true := by decide +kernel
  obtain ⟨o, ho, hx⟩ := List.any_eq_true.mp this
  cases o with
  | reset b => cases b <;> simp_all
  | _ => cases hx

/-- A master reset with erase code 1, one with the magic word for the bootloader, one that is refused and
restarts nevertheless. -/
example : restartAnswer exWorld exDev (exFrom [0x03#8, 0x81#8, 1#8, 0#8]) 11 (fun _ => 0) =
      some (0#8, 0#8, 1#8) ∧
    restartWanted (exFrom [0x03#8, 0x81#8, 7#8, 255#8]) = some .masterIntoBootloader ∧
    restartAnswer exWorld exDev (exFrom [0x03#8, 0x81#8, 2#8, 0#8]) 11 (fun _ => 0) =
      some (2#8, 0#8, 0#8) ∧ restartWanted (exFrom [0x03#8, 0x81#8, 2#8, 0#8]) = some .master := by
  decide +kernel

end Verif.Dev
