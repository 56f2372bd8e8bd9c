import Verif.Bus.PropsShared

/-!
# C104: how often a telegram is transmitted, and that the buffer is freed
-/

namespace Verif.Bus

open Verif.Knx

theorem isr_lims (i : Irq) (b : Bus) (h : Inv b) (hn : NoRetryErr b) :
    (isr i b).1.sendRetriesMax = b.sendRetriesMax ∧
    (isr i b).1.sendBusyRetriesMax = b.sendBusyRetriesMax := by
  have hx := isr_tx i b h hn
  generalize isr i b = r at *
  obtain ⟨c, outs⟩ := r
  simp only at hx ⊢
  have lim : ∀ {x : Bus}, txF c = txF x → c.sendRetriesMax = x.sendRetriesMax ∧
      c.sendBusyRetriesMax = x.sendBusyRetriesMax := by
    intro x h
    obtain ⟨_, _, _, _, _, _, a, b⟩ := txF_eq h
    exact ⟨a, b⟩
  cases hx with
  | other h1 h2 h3 => exact lim h1
  | same h0 h1 h2 => exact lim h1
  | char h0 t ht h1 h2 => have := lim h1; exact this
  | begin t ht hx h1 h2 => have := lim h1; exact this
  | done h0 hs h1 h2 =>
    have := lim h1
    unfold counted at this
    exact ⟨this.1.trans (by split <;> rfl), this.2.trans (by split <;> rfl)⟩
  | lost h0 p l h1 h2 hp hl => have := lim h1; exact this
  | noAck h0 h1 h2 => have := lim h1; exact this
  | finish ok h0 h1 h2 h3 h4 h5 => exact h5

theorem startPending_lims (i : Irq) (b : Bus) :
    (startPending i b).1.sendRetriesMax = b.sendRetriesMax ∧
    (startPending i b).1.sendBusyRetriesMax = b.sendBusyRetriesMax := by
  unfold startPending
  split <;> exact ⟨rfl, rfl⟩

theorem call_lims (s : Sys) (v : Ev) (h1 : ∀ i, v ≠ .irq i) (hs : isSetter v = false) :
    (step s v).1.bus.sendRetriesMax = s.bus.sendRetriesMax ∧
    (step s v).1.bus.sendBusyRetriesMax = s.bus.sendBusyRetriesMax := by
  cases v <;> simp only [step]
  case irq i => exact absurd rfl (h1 i)
  case queue => split <;> exact ⟨rfl, rfl⟩
  case kick => split <;> exact ⟨rfl, rfl⟩
  case discard => exact ⟨trivial, trivial⟩
  case pause => split <;> exact ⟨rfl, rfl⟩
  case resume => first | exact ⟨rfl, rfl⟩ | (split <;> exact ⟨rfl, rfl⟩)
  case maxRetries => cases hs
  case maxBusyRetries => cases hs

/-- Steps of the main program inside `acquireSendBuffer`, `sendTelegram` and between. -/
def SEv.isMain : SEv → Bool
  | .test | .take | .poke _ _ | .drop | .send | .high _ | .low | .sum | .look | .point => true
  | _ => false

theorem main_noop (s : Shared) (e : SEv) (hg : SGood s) (hc : s.cur = true) (he : e.isMain = true) :
    stepS s e = (s, []) := by
  have hpc := hg.own.pcs hc
  have hb : s.bst = .sending := by rw [hg.own.own, hc]; rfl
  cases e <;> first | cases he | skip
  all_goals rcases hpc with h | h <;> simp [stepS, h, hb]

/-- Only WAIT_50BT leads to IDLE. -/
theorem dispatch_notIdle (i : Irq) (b : Bus) (h : b.st ≠ .idle) (hw : b.st ≠ .wait50) :
    (dispatch i b).1.st ≠ .idle := by
  unfold dispatch
  cases hs : b.st <;> simp only
  case init =>
    unfold initSt
    split
    · simp [hs]
    · simp only
      split
      · next hc =>
        unfold wait50
        simp only [hc, if_true]
        exact initRx_notIdle i _
      · simp
  case idle => exact absurd hs h
  case wait50 => exact absurd hs hw
  case initRx => exact initRx_notIdle i b
  case waitStart => exact waitStart_notIdle i b
  case recvBits => exact recvBits_notIdle i b h
  case waitAckTx =>
    unfold waitAckTx
    split
    · exact initRx_notIdle i _
    · simp
  case sendStart =>
    unfold sendStart
    split
    · split
      · exact initRx_notIdle i _
      · simp
    · unfold sendBit0
      exact sendBits_notIdle i _ rfl
  case sendBit0 =>
    unfold sendBit0
    exact sendBits_notIdle i _ rfl
  case sendBits => exact sendBits_notIdle i b hs
  case sendEndByte => unfold sendEndByte; split <;> simp
  case sendEndTx =>
    unfold sendEndTx
    split
    · simp
    · simp only; split
      · split <;> simp
      · simp
  case ackWindow => simp [ackWindow]
  case waitAck =>
    unfold waitAck
    split
    · exact initRx_notIdle i b
    · simp

theorem report_notIdle (i : Irq) (b : Bus) (hw : b.st ≠ .wait50) (ok : Bool)
    (h : (isr i b).2 = [.finished ok]) : (isr i b).1.st ≠ .idle := by
  unfold isr at h ⊢
  by_cases hsp : isSpike i b = true
  · simp [hsp] at h
  · simp only [hsp, Bool.false_eq_true, if_false] at h ⊢
    by_cases hi : b.st = .idle
    · have hd : ∀ x : Bus, x.st = .idle → dispatch i x = if i.cap then initRx i x else (x, []) := by
        intro x hx; unfold dispatch; rw [hx]
      rw [hd { b with tSet := none } hi] at h ⊢
      by_cases hc : i.cap = true
      · simp only [hc, if_true]
        exact initRx_notIdle i _
      · simp [hc] at h
    · exact dispatch_notIdle i { b with tSet := none } hi hw

/-- `n` transmissions since the main program handed over the telegram. -/
structure Track (R B n : Nat) (s : Shared) : Prop where
  lims : s.view.sendRetriesMax = R ∧ s.view.sendBusyRetriesMax = B
  busy : s.cur = true →
    ∃ t0 l, Round t0 R B l s.view ∧ n ≤ s.rep * max 1 (R + B) + count .txEnd l
  over : s.cur = false → n ≤ 4 * max 1 (R + B)
  aw : s.pc ≠ .kick → Awake s.sys

theorem awake_none {s : Shared} (h : s.cur = false) : Awake s.sys := by
  intro hx
  have : s.sys.bus.sendCur = none := by
    show (if s.cur then some s.buf else none) = none
    rw [h]; rfl
  rw [this] at hx
  cases hx

theorem cur_some {s : Shared} (h : s.cur = true) : s.sys.bus.sendCur = some s.buf := by
  show (if s.cur then some s.buf else none) = _
  rw [h]; rfl

/-- One step of the link layer while it has the telegram. -/
theorem round_one {t0 : Buf} {R B : Nat} {l : List Out} {s : Shared} (hg : SGood s)
    (h : Round t0 R B l s.view) (v : Ev) (hs : isSetter v = false) (hc : s.cur = true) :
    Round t0 R B (l ++ (step s.sys v).2) (step s.sys v).1.bus ∨
    Over t0 R B (l ++ (step s.sys v).2) (step s.sys v).1.bus := by
  have hacc : accepted s.sys [v] = 0 := by
    cases v <;> simp [accepted, cur_some hc]
  have := round_run (es := [v]) hg.link.inv hg.link.err (by simpa using hs) hacc (Or.inl h)
  simpa only [run, List.append_nil] using this

theorem awake_one {s : Shared} (hg : SGood s) (v : Ev) (hc : s.cur = true) (h : Awake s.sys) :
    Awake (step s.sys v).1 := by
  refine step_awake s.sys v hg.link.inv hg.link.err ?_ h
  cases v <;> simp [accepted, cur_some hc]

theorem track_call {R B n : Nat} {s s' : Shared} (hg : SGood s) (h : Track R B n s) (v : Ev)
    (h1 : ∀ i, v ≠ .irq i) (h2 : ∀ o t l, v ≠ .queue o t l) (hs : isSetter v = false)
    (hsys : s'.sys = (step s.sys v).1) (hc : s'.cur = s.cur) (hrep : s'.rep = s.rep)
    (hpc : s'.pc ≠ .kick → s.pc ≠ .kick ∨ v = .kick) :
    Track R B (n + count .txEnd (step s.sys v).2) s' := by
  have hv : s'.view = (step s.sys v).1.bus := congrArg Sys.bus hsys
  have hl := call_lims s.sys v h1 hs
  have hout : (step s.sys v).2 = [] := by
    cases v <;> simp only [step]
    case irq i => exact absurd rfl (h1 i)
    case queue o t l => exact absurd rfl (h2 o t l)
    case kick => split <;> rfl
    case pause => split <;> rfl
    case resume => split <;> rfl
  have hn0 : n + count .txEnd (step s.sys v).2 = n := by rw [hout]; rfl
  rw [hn0]
  refine ⟨?_, ?_, ?_, ?_⟩
  · rw [hv]; exact ⟨hl.1.trans h.lims.1, hl.2.trans h.lims.2⟩
  · intro hc'
    rw [hc] at hc'
    obtain ⟨t0, l, hr, hn⟩ := h.busy hc'
    rcases round_one hg hr v hs hc' with h3 | h3
    · rw [hout, List.append_nil] at h3
      exact ⟨t0, l, by rw [hv]; exact h3, by rw [hrep]; exact hn⟩
    · exfalso
      have := h3.cur
      rw [step_cur s.sys v h1 h2, cur_some hc'] at this
      cases this
  · rw [hc]; exact h.over
  · intro hp
    rw [hsys]
    cases hcs : s.cur
    · intro hx
      rw [step_cur s.sys v h1 h2] at hx
      exact absurd hx (by
        show ¬ (s.sys.bus.sendCur.isSome = true)
        have : s.sys.bus.sendCur = none := by
          show (if s.cur then some s.buf else none) = none
          rw [hcs]; rfl
        rw [this]; simp)
    · rcases hpc hp with h4 | h4
      · exact awake_one hg v hcs (h.aw h4)
      · rw [h4]; exact kick_awake _

theorem track_irq {R B n : Nat} {s : Shared} (hg : SGood s) (h : Track R B n s) (i : Irq)
    (hp : s.paused = false) :
    Track R B (n + count .txEnd (stepS s (.irq i)).2) (stepS s (.irq i)).1 := by
  have hstep : stepS s (.irq i) = isrS i s := by simp [stepS, hp]
  obtain ⟨hk, hpc, hpa⟩ := isrS_step i s hg.link.inv.inv hg.link.err hp
  have hg' := stepS_good hg (.irq i)
  have hirq : step s.sys (.irq i) = (⟨(isr i s.view).1, false⟩, (isr i s.view).2) := by
    simp [step, Shared.sys, hp]
  have hl : (isr i s.view).1.sendRetriesMax = s.view.sendRetriesMax ∧
    (isr i s.view).1.sendBusyRetriesMax = s.view.sendBusyRetriesMax :=
    isr_lims i s.view hg.link.inv.inv hg.link.err
  rw [hstep] at hg' ⊢
  generalize isrS i s = r at *
  obtain ⟨s', outs⟩ := r
  simp only at hk hpc hpa hg' ⊢
  have hlims : s'.view = (isr i s.view).1 →
      s'.view.sendRetriesMax = R ∧ s'.view.sendBusyRetriesMax = B := by
    intro hv; rw [hv]; exact ⟨hl.1.trans h.lims.1, hl.2.trans h.lims.2⟩
  cases hk with
  | idle h0 h1 h2 h3 h4 h5 h6 h7 h8 =>
    refine ⟨hlims h6, (fun hx => by rw [h2] at hx; cases hx), fun _ => ?_, fun _ => awake_none h2⟩
    have hq := quiet_isr i s.view hg.link.inv.inv hg.link.err (by
      show (if s.cur then some s.buf else none) = none
      rw [h0]; rfl)
    have : count .txEnd outs = 0 := by
      rw [h7]
      unfold count
      rw [List.countP_eq_zero]
      intro o ho
      have := hq.1 o ho
      cases o <;> simp_all [neutral]
    rw [this]
    exact h.over h0
  | keep h0 h1 h2 h3 h4 h5 h6 h7 h8 =>
    obtain ⟨t0, l, hr, hn⟩ := h.busy h0
    have hsys : s'.sys = (step s.sys (.irq i)).1 := by
      rw [hirq]; unfold Shared.sys; rw [h6, hpa, hp]
    refine ⟨hlims h6, fun _ => ?_, (fun hx => by rw [h2] at hx; cases hx), fun hx => ?_⟩
    · rcases round_one hg hr (.irq i) rfl h0 with h9 | h9
      · rw [hirq] at h9
        refine ⟨t0, _, by rw [h6]; exact h9, ?_⟩
        rw [count_append, h5, h7]; simp only; omega
      · exfalso
        have := h9.cur
        rw [← hsys, cur_some h2] at this
        cases this
    · rw [hsys]
      exact awake_one hg _ h0 (h.aw (by rw [← hpc]; exact hx))
  | done ok h0 h1 h2 h3 h4 h5 h6 h7 h8 =>
    obtain ⟨t0, l, hr, hn⟩ := h.busy h0
    refine ⟨hlims h6, (fun hx => by rw [h2] at hx; cases hx), fun _ => ?_, fun _ => awake_none h2⟩
    have hrep := hg.own.rep
    have : count .txEnd outs = 0 := by rw [h7, h8]; rfl
    rw [this, Nat.add_zero]
    have he := hr.ends
    have hmul : s.rep * max 1 (R + B) ≤ 3 * max 1 (R + B) := Nat.mul_le_mul_right _ hrep
    omega
  | again h0 h1 h2 h3 h4 h5 h6 h7 h8 h9 =>
    obtain ⟨t0, l, hr, hn⟩ := h.busy h0
    have he := hr.ends
    have hnone : (isr i s.view).1.sendCur = none := by
      have hb := isr_buf i s.view hg.link.inv.inv hg.link.err
      cases hb with
      | none _ _ h => rw [h8] at h; cases h
      | keep _ _ _ h => rw [h8] at h; cases h
      | mark _ _ _ h => rw [h8] at h; cases h
      | done _ _ _ h _ => exact h
    have hout : count .txEnd outs = 0 := by
      rcases h9 with ⟨_, q, _⟩ | ⟨_, q, _⟩ <;> rw [q] <;> rfl
    have hbound : n ≤ (s.rep + 1) * max 1 (R + B) := by
      rw [Nat.add_mul, Nat.one_mul]; omega
    have hi1 : SysInv (step s.sys (.irq i)).1 := step_inv hg.link.inv _
    have hn1 : NoRetryErr (step s.sys (.irq i)).1.bus := step_err _ _ hg.link.err
    have hstart := round_start hi1 i.own s.buf (telegramSize s.buf) (by rw [hirq]; exact hnone)
    have hlim1 : (step s.sys (.irq i)).1.bus.sendRetriesMax = R ∧
        (step s.sys (.irq i)).1.bus.sendBusyRetriesMax = B := by
      rw [hirq]; exact ⟨hl.1.trans h.lims.1, hl.2.trans h.lims.2⟩
    rw [hlim1.1, hlim1.2] at hstart
    have hq : step (step s.sys (.irq i)).1 (.queue i.own s.buf (telegramSize s.buf)) =
        (⟨{ (isr i s.view).1 with
          sendCur := some (prepareTelegram i.own s.buf (telegramSize s.buf)) }, false⟩, []) := by
      rw [hirq]
      simp only [step]
      rw [hnone]
    rcases h9 with ⟨q1, q2, q3⟩ | ⟨q1, q2, q3⟩
    · have hv : s'.view = (step (step s.sys (.irq i)).1 (.queue i.own s.buf (telegramSize s.buf))).1.bus :=
        by rw [hq, q3]
      refine ⟨?_, fun _ => ?_, (fun hx => by rw [h2] at hx; cases hx), fun hx => ?_⟩
      · rw [hv]
        have := hstart.lims
        exact this
      · exact ⟨_, [], by rw [hv]; exact hstart, by rw [h5, hout]; show n + 0 ≤ _ + 0; omega⟩
      · intro _
        show s'.view.st ≠ .idle
        rw [q3]
        show (isr i s.view).1.st ≠ .idle
        exact report_notIdle i s.view q1 false h8
    · have hcap : s.view.capInt = true :=
        (hg.link.armed hp).edge (by show s.view.st ≠ _; rw [q1]; decide)
          (by show s.view.st ≠ _; rw [q1]; decide)
      have hrun := wait50_again (u := s.buf) i s.sys _ i.own (telegramSize s.buf) hg.link.inv.inv hp hcap q1 false h8 rfl
      have e1 : s'.view = (startPending i (withTelegram (giveUp s.view)
          (prepareTelegram i.own s.buf (telegramSize s.buf)))).1 := congrArg Prod.fst q3
      have hi2 := step_inv hi1 (.queue i.own s.buf (telegramSize s.buf))
      have hn2 := step_err _ (.queue i.own s.buf (telegramSize s.buf)) hn1
      have hacc : accepted (step (step s.sys (.irq i)).1
          (.queue i.own s.buf (telegramSize s.buf))).1 [.kick, .irq i] = 0 := by simp [accepted]
      have hr2 := round_run hi2 hn2 [.kick, .irq i] (by simp [isSetter]) hacc (Or.inl hstart)
      have hlast : (run (step (step s.sys (.irq i)).1
          (.queue i.own s.buf (telegramSize s.buf))).1 [.kick, .irq i]).1 = s'.sys := by
        have : (run s.sys [.irq i, .queue i.own s.buf (telegramSize s.buf), .kick, .irq i]).1 =
          (run (step (step s.sys (.irq i)).1
          (.queue i.own s.buf (telegramSize s.buf))).1 [.kick, .irq i]).1 := rfl
        rw [← this, hrun]
        show Sys.mk (startPending i (withTelegram (giveUp s.view) _)).1 false = _
        rw [← e1]
        unfold Shared.sys
        rw [hpa, hp]
      rw [hlast] at hr2
      have hr3 : Round (prepareTelegram i.own s.buf (telegramSize s.buf)) R B
          ([] ++ (run (step (step s.sys (.irq i)).1
          (.queue i.own s.buf (telegramSize s.buf))).1 [.kick, .irq i]).2) s'.view := by
        rcases hr2 with h | h
        · exact h
        · exfalso
          have := h.cur
          rw [cur_some h2] at this
          cases this
      refine ⟨hr3.lims, fun _ => ⟨_, _, hr3, ?_⟩, (fun hx => by rw [h2] at hx; cases hx), fun _ _ => ?_⟩
      · rw [h5, hout]; omega
      · show s'.view.st ≠ .idle
        rw [e1]
        unfold startPending withTelegram
        simp

/-- A step that hands nothing over and changes no limit. -/
theorem track_step {R B n : Nat} {s : Shared} (hg : SGood s) (h : Track R B n s) (e : SEv)
    (hs : e.isSetter = false) (hn : given s e = []) :
    Track R B (n + count .txEnd (stepS s e).2) (stepS s e).1 := by
  have call : ∀ v : Ev, stepS s e = s.call v → (∀ i, v ≠ .irq i) → (∀ o t l, v ≠ .queue o t l) →
      isSetter v = false → Track R B (n + count .txEnd (stepS s e).2) (stepS s e).1 := by
    intro v he h1 h2 h3
    obtain ⟨c1, c2, c3, c4, c5⟩ := call_buf s v h1 h2
    rw [he]
    exact track_call hg h v h1 h2 h3 (call_sys s v) c1 c4 (fun hx => Or.inl (by rw [c5] at hx; exact hx))
  have same : stepS s e = (s, []) → Track R B (n + count .txEnd (stepS s e).2) (stepS s e).1 := by
    intro he; rw [he]; exact h
  cases hc : s.cur
  · -- the link layer does not have the buffer
    have quiet : ∀ x : Shared, stepS s e = (x, []) → x.bus = s.bus → x.cur = false →
        Track R B (n + count .txEnd (stepS s e).2) (stepS s e).1 := by
      intro x he hx hcx
      rw [he]
      have hv : ∀ y : Shared, y.cur = false → y.view = { y.bus with sendCur := none } := by
        intro y hy; unfold Shared.view; rw [hy]; rfl
      refine ⟨?_, (fun hy => by rw [hcx] at hy; cases hy), fun _ => h.over hc, fun _ => awake_none hcx⟩
      rw [hv x hcx, hx]
      have := h.lims
      rw [hv s hc] at this
      exact this
    cases e
    case irq i =>
      cases hp : s.paused
      · exact track_irq hg h i hp
      · exact same (by simp [stepS, hp])
    case test =>
      by_cases hx : s.pc = .away ∧ s.bst = .free
      · exact quiet { s with pc := .found } (by simp [stepS, hx]) rfl hc
      · exact same (by simp only [stepS, hx, if_false])
    case take =>
      by_cases hx : s.pc = .found
      · exact quiet { s with pc := .filling, bst := .acquired } (by simp [stepS, hx]) rfl hc
      · exact same (by simp only [stepS, hx, if_false])
    case poke j v =>
      by_cases hx : s.pc = .filling
      · exact quiet { s with buf := upd s.buf j v } (by simp [stepS, hx]) rfl hc
      · exact same (by simp only [stepS, hx, if_false])
    case drop =>
      by_cases hx : s.pc = .filling
      · exact quiet { s with pc := .away, bst := .free } (by simp [stepS, hx]) rfl hc
      · exact same (by simp only [stepS, hx, if_false])
    case send =>
      by_cases hx : s.pc = .filling
      · exact quiet { s with pc := .high (telegramSize s.buf), bst := .sending } (by simp [stepS, hx])
          rfl hc
      · exact same (by simp only [stepS, hx, if_false])
    case high own =>
      cases hx : s.pc
      case high len =>
        exact quiet { s with pc := .low own len, buf := upd s.buf 1 (highByte own) }
          (by simp [stepS, hx]) rfl hc
      all_goals exact same (by simp [stepS, hx])
    case low =>
      cases hx : s.pc
      case low own len =>
        exact quiet { s with pc := .sum len, buf := upd s.buf 2 (lowByte own) }
          (by simp [stepS, hx]) rfl hc
      all_goals exact same (by simp [stepS, hx])
    case sum =>
      cases hx : s.pc
      case sum len =>
        exact quiet { s with pc := .spin, buf := upd s.buf len (xorBytes s.buf len 0xff#8) }
          (by simp [stepS, hx]) rfl hc
      all_goals exact same (by simp [stepS, hx])
    case look =>
      by_cases hx : s.pc = .spin ∧ s.cur = false
      · exact quiet { s with pc := .point } (by simp [stepS, hx]) rfl hc
      · exact same (by simp only [stepS, hx, if_false])
    case point =>
      by_cases hx : s.pc = .point
      · simp [given, hx] at hn
      · exact same (by simp only [stepS, hx, if_false])
    case kick =>
      by_cases hx : s.pc = .kick
      · obtain ⟨c1, c2, c3, c4, c5⟩ := call_buf s .kick (by simp) (by simp)
        have he : stepS s .kick = ({ (s.call .kick).1 with pc := .away }, (s.call .kick).2) := by
          simp only [stepS, hx, if_true]
        rw [he]
        exact track_call hg h .kick (by simp) (by simp) rfl (call_sys s .kick) c1 c4
          (fun _ => Or.inr rfl)
      · exact same (by simp only [stepS, hx, if_false])
    case discard => exact call .discard rfl (by simp) (by simp) rfl
    case pause w => exact call (.pause w) rfl (by simp) (by simp) rfl
    case resume => exact call .resume rfl (by simp) (by simp) rfl
    case maxRetries => cases hs
    case maxBusyRetries => cases hs
  · by_cases hm : e.isMain = true
    · exact same (main_noop s e hg hc hm)
    · cases e
      case irq i =>
        cases hp : s.paused
        · exact track_irq hg h i hp
        · exact same (by simp [stepS, hp])
      case kick =>
        by_cases hx : s.pc = .kick
        · obtain ⟨c1, c2, c3, c4, c5⟩ := call_buf s .kick (by simp) (by simp)
          have he : stepS s .kick = ({ (s.call .kick).1 with pc := .away }, (s.call .kick).2) := by
            simp only [stepS, hx, if_true]
          rw [he]
          exact track_call hg h .kick (by simp) (by simp) rfl (call_sys s .kick) c1 c4
            (fun _ => Or.inr rfl)
        · exact same (by simp only [stepS, hx, if_false])
      case discard => exact call .discard rfl (by simp) (by simp) rfl
      case pause w => exact call (.pause w) rfl (by simp) (by simp) rfl
      case resume => exact call .resume rfl (by simp) (by simp) rfl
      case maxRetries => cases hs
      case maxBusyRetries => cases hs
      all_goals exact absurd rfl hm

/-- The main program hands a telegram over. -/
theorem track_point {R B : Nat} {s : Shared} (hg : SGood s) (hp : s.pc = .point)
    (hl : s.view.sendRetriesMax = R ∧ s.view.sendBusyRetriesMax = B) :
    Track R B 0 (stepS s .point).1 := by
  have hc : s.cur = false := by
    cases hc : s.cur
    · rfl
    · rcases hg.own.pcs hc with h | h <;> rw [hp] at h <;> cases h
  obtain ⟨own, t, ht⟩ := hg.own.ready (Or.inr hp)
  have hnone : s.sys.bus.sendCur = none := by
    show (if s.cur then some s.buf else none) = none
    rw [hc]; rfl
  have hstart := round_start hg.link.inv own t (telegramSize t) hnone
  have he : stepS s .point = ({ s with pc := .kick, cur := true }, []) := by
    simp only [stepS, hp, if_true]
  have hv : ({ s with pc := .kick, cur := true } : Shared).view =
      (step s.sys (.queue own t (telegramSize t))).1.bus := by
    simp only [step]
    rw [hnone, ← ht]
    rfl
  have h1 : s.sys.bus.sendRetriesMax = R := hl.1
  have h2 : s.sys.bus.sendBusyRetriesMax = B := hl.2
  rw [h1, h2] at hstart
  rw [he]
  refine ⟨?_, fun _ => ⟨_, [], by rw [hv]; exact hstart, Nat.zero_le _⟩, (fun hx => by cases hx),
    fun hx => absurd rfl hx⟩
  rw [hv]
  exact hstart.lims

theorem track_run {R B n : Nat} {s : Shared} (hg : SGood s) (h : Track R B n s) (fs : List SEv)
    (hs : ∀ e ∈ fs, e.isSetter = false) (hn : givens s fs = []) :
    Track R B (n + count .txEnd (runS s fs).2) (runS s fs).1 := by
  induction fs generalizing s n with
  | nil => exact h
  | cons e fs ih =>
    simp only [givens, List.append_eq_nil_iff] at hn
    have := ih (stepS_good hg e) (track_step hg h e (hs e (by simp)) hn.1)
      (fun e he => hs e (by simp [he])) hn.2
    simp only [runS]
    rw [count_append, ← Nat.add_assoc]
    exact this

/-- A telegram is transmitted at most `4 * max 1 (R + B)` times until the main program hands over the
next one, with the retry limits `R` and `B` of the link layer, counting the transmissions of all
hand-overs. -/
theorem C104_bounded (es fs : List SEv) (hp : (runS bootS es).1.pc = .point)
    (hn : givens (stepS (runS bootS es).1 .point).1 fs = []) (hs : ∀ e ∈ fs, e.isSetter = false) :
    count .txEnd (runS (stepS (runS bootS es).1 .point).1 fs).2 ≤
      4 * max 1 ((runS bootS es).1.bus.sendRetriesMax + (runS bootS es).1.bus.sendBusyRetriesMax) := by
  have hg := runS_good boot_good es
  generalize (runS bootS es).1 = s at *
  have ht := track_point (R := s.bus.sendRetriesMax) (B := s.bus.sendBusyRetriesMax) hg hp ⟨rfl, rfl⟩
  have hg' := stepS_good hg .point
  have h := track_run hg' ht fs hs hn
  have hgf := runS_good hg' fs
  rw [Nat.zero_add] at h
  cases hc : (runS (stepS s .point).1 fs).1.cur
  · exact h.over hc
  · obtain ⟨t0, l, hr, hle⟩ := h.busy hc
    have he := hr.ends
    have hrep := hgf.own.rep
    have hmul := Nat.mul_le_mul_right (max 1 (s.bus.sendRetriesMax + s.bus.sendBusyRetriesMax)) hrep
    omega

example := C104_bounded eFill (.kick :: eSilence 320) (by decide +kernel) (by decide +kernel)
  (by decide +kernel)

/-! ## The buffer is freed -/

/-- The same without counting. -/
theorem track_any {R B : Nat} {s : Shared} (hg : SGood s) (h : ∃ n, Track R B n s) (fs : List SEv)
    (hs : ∀ e ∈ fs, e.isSetter = false) : ∃ n, Track R B n (runS s fs).1 := by
  induction fs generalizing s with
  | nil => exact h
  | cons e fs ih =>
    refine ih (stepS_good hg e) ?_ (fun e he => hs e (by simp [he]))
    obtain ⟨n, hn⟩ := h
    by_cases hgv : given s e = []
    · exact ⟨_, track_step hg hn e (hs e (by simp)) hgv⟩
    · cases e
      case point =>
        by_cases hx : s.pc = .point
        · exact ⟨0, track_point hg hx hn.lims⟩
        · simp [given, hx] at hgv
      all_goals exact absurd rfl hgv

/-- Interrupts up to the next completion report. -/
theorem until_report (m : Nat) : ∀ (s : Shared), SGood s → s.cur = true → s.paused = false →
    ∀ (g : Nat → Irq) (ok : Bool), .finished ok ∈ (run s.sys ((List.range m).map fun k => .irq (g k))).2 →
    ∃ k, let s' := (runS s ((List.range k).map fun k => .irq (g k))).1
      s'.paused = false ∧ s'.pc = s.pc ∧
        (s'.bst = .free ∨ s'.cur = true ∧ s'.rep = s.rep + 1) := by
  induction m with
  | zero => intro s _ _ _ g ok h; simp [run] at h
  | succ m ih =>
    intro s hg hc hp g ok h
    have hr : ∀ k, (List.range (k + 1)).map (fun k => Ev.irq (g k)) =
        .irq (g 0) :: (List.range k).map fun k => Ev.irq (g (k + 1)) := by
      intro k; rw [List.range_succ_eq_map]; simp
    have hrS : ∀ k, (List.range (k + 1)).map (fun k => SEv.irq (g k)) =
        .irq (g 0) :: (List.range k).map fun k => SEv.irq (g (k + 1)) := by
      intro k; rw [List.range_succ_eq_map]; simp
    have hstep : stepS s (.irq (g 0)) = isrS (g 0) s := by simp [stepS, hp]
    obtain ⟨hk, hpc, hpa⟩ := isrS_step (g 0) s hg.link.inv.inv hg.link.err hp
    have hirq : step s.sys (.irq (g 0)) = (⟨(isr (g 0) s.view).1, false⟩, (isr (g 0) s.view).2) := by
      simp [step, Shared.sys, hp]
    have one : runS s ((List.range 1).map fun k => .irq (g k)) = (isrS (g 0) s) := by
      show ((stepS s (.irq (g 0))).1, (stepS s (.irq (g 0))).2 ++ []) = _
      rw [hstep, List.append_nil]
    have hg' : SGood (isrS (g 0) s).1 := by rw [← hstep]; exact stepS_good hg _
    cases hk with
    | idle h0 => rw [hc] at h0; cases h0
    | keep h0 h1 h2 h3 h4 h5 h6 h7 h8 =>
      have hsys : (step s.sys (.irq (g 0))).1 = (isrS (g 0) s).1.sys := by
        rw [hirq]; unfold Shared.sys; rw [h6, hpa, hp]
      rw [hr m] at h
      simp only [run] at h
      rw [hsys] at h
      have hno : ¬ .finished ok ∈ (step s.sys (.irq (g 0))).2 := by
        rw [hirq]
        intro hx
        rw [h7] at h8
        have : ∀ l : List Out, .finished ok ∈ l → reported l ≠ none := by
          intro l
          induction l with
          | nil => intro hx; cases hx
          | cons o l ih =>
            intro hx
            cases o <;> simp only [reported] <;>
              first | exact ih (by simpa using hx) | simp
        exact this _ hx h8
      have h' := (List.mem_append.1 h).resolve_left hno
      obtain ⟨k, k1, k2, k3⟩ := ih _ hg' h2 (hpa.trans hp) (fun k => g (k + 1)) ok h'
      refine ⟨k + 1, ?_⟩
      rw [hrS k]
      simp only [runS, hstep]
      refine ⟨k1, k2.trans hpc, ?_⟩
      rw [h5] at k3
      exact k3
    | done ok h0 h1 h2 h3 h4 =>
      refine ⟨1, ?_⟩
      simp only [one]
      exact ⟨hpa.trans hp, hpc, Or.inl h4⟩
    | again h0 h1 h2 h3 h4 h5 =>
      refine ⟨1, ?_⟩
      simp only [one]
      exact ⟨hpa.trans hp, hpc, Or.inr ⟨h2, h5⟩⟩

theorem freed {R B : Nat} (m : Nat) : ∀ (s : Shared), 3 - s.rep = m → SGood s → (∃ n, Track R B n s) →
    s.paused = false → s.pc = .away → ∀ (g : Nat → Irq), (∀ n, (g n).cap = false ∧ (g n).tmo = true) →
    ∃ n, (runS s ((List.range n).map fun k => .irq (g k))).1.bst = .free := by
  induction m using Nat.strongRecOn with
  | _ m ih =>
    intro s hm hg ht hp hpc g hgt
    cases hc : s.cur
    · refine ⟨0, ?_⟩
      show s.bst = .free
      rw [hg.own.own, hc, hpc]
      rfl
    · obtain ⟨n, hn⟩ := ht
      obtain ⟨t0, l, hr, _⟩ := hn.busy hc
      have haw := hn.aw (by rw [hpc]; decide) (by rw [cur_some hc]; rfl)
      obtain ⟨k, ok, hlast⟩ := silent_run (s := s.sys) hr hg.link.inv hg.link.err hg.link.mask haw hp g
        (fun n => by simp [isTimeout, hgt n])
      obtain ⟨k, k1, k2, k3⟩ := until_report k s hg hc hp g ok (List.mem_of_getLast? hlast)
      rcases k3 with k3 | ⟨k3, k4⟩
      · exact ⟨k, k3⟩
      · have hset : ∀ e ∈ (List.range k).map (fun k => SEv.irq (g k)), e.isSetter = false := by
          intro e he
          obtain ⟨j, _, rfl⟩ := List.mem_map.1 he
          rfl
        have hg' := runS_good hg ((List.range k).map fun k => .irq (g k))
        have ht' := track_any hg ⟨n, hn⟩ _ hset
        have hle := hg'.own.rep
        obtain ⟨j, hj⟩ := ih _ (by omega) _ rfl hg' ht' k1 (k2.trans hpc) (fun j => g (k + j))
          (fun n => hgt _)
        refine ⟨k + j, ?_⟩
        have : (List.range (k + j)).map (fun k => SEv.irq (g k)) =
            (List.range k).map (fun k => SEv.irq (g k)) ++
              (List.range j).map fun j => SEv.irq (g (k + j)) := by
          rw [List.range_add]; simp
        rw [this, runS_append]
        exact hj

/-- A main program that waits for the send buffer gets it: whatever has happened (the retry limits are
not changed after the history `es`, at the end of which the link layer has no telegram), if the bus object
is not paused and from now on there are only timeouts, the buffer becomes free after finitely many of
them, also if the telegram in it is handed over again. -/
theorem C104_released (es fs : List SEv) (h0 : (runS bootS es).1.cur = false)
    (hs : ∀ e ∈ fs, e.isSetter = false) (hpc : (runS bootS (es ++ fs)).1.pc = .away)
    (hp : (runS bootS (es ++ fs)).1.paused = false) (g : Nat → Irq)
    (hg : ∀ n, (g n).cap = false ∧ (g n).tmo = true) :
    ∃ n, (runS (runS bootS (es ++ fs)).1 ((List.range n).map fun k => .irq (g k))).1.bst = .free := by
  have g0 := runS_good boot_good es
  have g1 := runS_good boot_good (es ++ fs)
  have ht : ∃ n, Track (runS bootS es).1.view.sendRetriesMax (runS bootS es).1.view.sendBusyRetriesMax n
      (runS bootS es).1 :=
    ⟨0, ⟨rfl, rfl⟩, (fun hx => by rw [h0] at hx; cases hx), fun _ => Nat.zero_le _,
      fun _ => awake_none h0⟩
  have ht' := track_any g0 ht fs hs
  rw [show (runS (runS bootS es).1 fs).1 = (runS bootS (es ++ fs)).1 by rw [runS_append]] at ht'
  exact freed _ _ rfl g1 ht' hp hpc g hg

example := C104_released [] (eFill ++ [.point, .kick]) rfl (by decide +kernel) (by decide +kernel)
  (by decide +kernel) (fun _ => dTimeout) (fun _ => ⟨rfl, rfl⟩)

end Verif.Bus
