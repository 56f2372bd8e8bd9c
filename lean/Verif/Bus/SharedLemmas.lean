import Verif.Bus.SharedSpec
import Verif.Bus.PropsArmed
import Verif.Bus.PropsTx

/-!
# Lemmas about the shared send buffer
-/

namespace Verif.Bus

open Verif.Knx

theorem view_back (s : Shared) (b : Bus) : (s.back b).view = b := by
  obtain ⟨⟩ := b
  rename_i c _ _ _ _ _ _ _ _ _ _ _ _ _ _
  cases c <;> rfl

theorem view_cur (s : Shared) : s.view.sendCur = if s.cur then some s.buf else none := rfl

theorem back_view (s : Shared) : s.back s.view = { s with bus := s.view } := by
  cases h : s.cur <;> simp [Shared.back, Shared.view, h]

theorem view_bus (s : Shared) (b : Bus) (h : b.sendCur = if s.cur then some s.buf else none) :
    ({ s with bus := b } : Shared).view = b := by
  show { b with sendCur := if s.cur then some s.buf else none } = b
  rw [← h]

/-! ## The report in the log -/

theorem reported_neutral {l : List Out} (h : ∀ o ∈ l, neutral o) : reported l = none := by
  induction l with
  | nil => rfl
  | cons o l ih =>
    have h1 := h o (by simp)
    have h2 := ih fun o ho => h o (by simp [ho])
    cases o <;> simp_all [reported, neutral]

theorem reported_append {p l : List Out} (h : ∀ o ∈ p, neutral o) : reported (p ++ l) = reported l := by
  induction p with
  | nil => rfl
  | cons o p ih =>
    have h1 := h o (by simp)
    have h2 := ih fun o ho => h o (by simp [ho])
    cases o <;> simp_all [reported, neutral]

/-- What an interrupt does to the buffer. -/
inductive BufStep (b : Bus) (outs : List Out) (b' : Bus) : Prop
  /-- the link layer does not have it -/
  | none (h0 : b.sendCur = none) (h1 : b'.sendCur = none) (h2 : reported outs = none)
  /-- it keeps it -/
  | keep (t : Buf) (h0 : b.sendCur = some t) (h1 : b'.sendCur = some t) (h2 : reported outs = none)
  /-- it marks the telegram as repeated -/
  | mark (t : Buf) (h0 : b.sendCur = some t) (h1 : b'.sendCur = some (marked b t))
      (h2 : reported outs = none)
  /-- it reports the completion -/
  | done (t : Buf) (ok : Bool) (h0 : b.sendCur = some t) (h1 : b'.sendCur = none)
      (h2 : outs = [.finished ok])

theorem isr_buf (i : Irq) (b : Bus) (h : Inv b) (hn : NoRetryErr b) :
    BufStep b (isr i b).2 (isr i b).1 := by
  have hx := isr_tx i b h hn
  generalize isr i b = r at *
  obtain ⟨c, outs⟩ := r
  simp only at hx ⊢
  have keep : c.sendCur = b.sendCur → reported outs = none → BufStep b outs c := by
    intro h1 h2
    cases hc : b.sendCur with
    | none => exact .none hc (h1.trans hc) h2
    | some t => exact .keep t hc (h1.trans hc) h2
  cases hx with
  | other h1 h2 h3 => exact keep (txF_eq h1).1 (reported_neutral h2)
  | same h0 h1 h2 => exact keep (txF_eq h1).1 (by rw [h2]; rfl)
  | char h0 t ht h1 h2 => exact keep (txF_eq h1).1 (by rw [h2]; rfl)
  | begin t ht hx h1 h2 => exact .mark t ht (txF_eq h1).1 (by rw [h2]; rfl)
  | done h0 hs h1 h2 => exact keep (txF_eq h1).1 (by rw [h2]; rfl)
  | lost h0 p l h1 h2 hp hl =>
    exact keep (txF_eq h1).1 (by
      rw [h2, reported_append hp]
      exact reported_neutral (l := l) hl)
  | noAck h0 h1 h2 => exact keep (txF_eq h1).1 (reported_neutral h2)
  | finish ok h0 h1 h2 =>
    obtain ⟨t, ht⟩ := Option.isSome_iff_exists.1 h0
    exact .done t ok ht h1 h2

/-! ## The handler goes on after a failure -/

theorem wait50_split (i : Irq) (b : Bus) (hc : i.cap = false) :
    wait50 i b =
      (let r : Res :=
        if retriesExhausted b then finishSendingTelegram { b with txError := b.txError ||| 128#16 }
        else (b, [])
       ((startPending i r.1).1, r.2 ++ (startPending i r.1).2)) := by
  unfold wait50 startPending
  simp only [hc, Bool.false_eq_true, if_false]
  generalize (if retriesExhausted b = true then
    finishSendingTelegram { b with txError := b.txError ||| 128#16 } else (b, [])) = r
  cases hs : r.1.sendCur <;> simp

/-- The completion report in WAIT_50BT. -/
theorem wait50_report (i : Irq) (b : Bus) (h : Inv b) (hs : b.st = .wait50) (ok : Bool)
    (hr : (isr i b).2 = [.finished ok]) :
    i.cap = false ∧ ok = false ∧ retriesExhausted b = true ∧
    (isr i b).1 = idleState (giveUp b) := by
  have hw : b.waitForAck = false := by
    cases hw : b.waitForAck
    · rfl
    · have := (h.waitSt hw).1
      simp [hs] at this
  unfold isr at hr ⊢
  by_cases hsp : isSpike i b = true
  · simp [hsp] at hr
  · simp only [hsp, Bool.false_eq_true, if_false] at hr ⊢
    have hd : ∀ x : Bus, x.st = .wait50 → dispatch i x = wait50 i x := by
      intro x hx; unfold dispatch; rw [hx]
    rw [hd { b with tSet := none } hs] at hr ⊢
    cases hc : i.cap
    · rw [wait50_split i _ hc] at hr ⊢
      by_cases hx : retriesExhausted b = true
      · have hx' : retriesExhausted { b with tSet := none } = true := hx
        simp only [hx', if_true] at hr ⊢
        have hn := finish_sendCur { b with tSet := none, txError := b.txError ||| 128#16 }
        have hsp : ∀ c : Bus, c.sendCur = none → startPending i c = (idleState c, []) := by
          intro c hc; unfold startPending; rw [hc]
        have e := hsp _ hn
        rw [e] at hr ⊢
        refine ⟨trivial, ?_, hx, rfl⟩
        unfold finishSendingTelegram at hr
        cases hcur : b.sendCur with
        | none => simp [hcur] at hr
        | some t =>
          simp only [hcur, retryErr_set] at hr
          simpa using hr.symm
      · have hx' : retriesExhausted { b with tSet := none } = false :=
          eq_false_of_ne_true hx
        simp only [hx', Bool.false_eq_true, if_false] at hr
        exfalso
        unfold startPending at hr
        cases hcur : b.sendCur <;> simp [hcur] at hr
    · exfalso
      have hx : wait50 i { b with tSet := none } = initRx i { b with tSet := none } := by
        unfold wait50; simp [hc]
      rw [hx] at hr
      have := (initRx_tx i { b with tSet := none } (Or.inr hw)).2.1 (.finished ok) (by rw [hr]; simp)
      cases this

/-- A telegram handed over inside the report of WAIT_50BT is treated as if the handler had finished and
the telegram had been handed over and the timer had expired afterwards. -/
theorem wait50_again (i : Irq) (s : Sys) (t : Buf) (own : Word) (len : Nat) (h : Inv s.bus)
    (hp : s.paused = false) (ha : s.bus.capInt = true) (hs : s.bus.st = .wait50) (ok : Bool)
    (hr : (isr i s.bus).2 = [.finished ok]) (ht : t = prepareTelegram own u len) :
    run s [.irq i, .queue own u len, .kick, .irq i] =
      (⟨(startPending i (withTelegram (giveUp s.bus) t)).1, false⟩,
        [.finished ok] ++ (startPending i (withTelegram (giveUp s.bus) t)).2) := by
  obtain ⟨hc, hok, hx, he⟩ := wait50_report i s.bus h hs ok hr
  have hfin : (giveUp s.bus).sendCur = none := finish_sendCur _
  have hfo : (giveUp s.bus).collisions = 0#8 ∧ (giveUp s.bus).repeatTel = false :=
    ⟨(finish_other _).1, (finish_other _).2.1⟩
  have hft : (giveUp s.bus).tSet = none := by
    unfold giveUp finishSendingTelegram; split <;> rfl
  have hfc : (giveUp s.bus).capInt = true := by
    unfold giveUp finishSendingTelegram; split <;> exact ha
  obtain ⟨b, p⟩ := s
  simp only at *
  subst hp
  generalize giveUp b = f at *
  have h1 : step ⟨b, false⟩ (.irq i) = (⟨idleState f, false⟩, [.finished ok]) := by
    simp only [step, Bool.false_eq_true, if_false]
    rw [he, hr]
  have h2 : step ⟨idleState f, false⟩ (.queue own u len) =
      (⟨{ idleState f with sendCur := some t }, false⟩, []) := by
    have : (idleState f).sendCur = none := hfin
    simp only [step]
    rw [this, ht]
  have h3 : step ⟨{ idleState f with sendCur := some t }, false⟩ .kick =
      (⟨startSendingImmediately { idleState f with sendCur := some t }, false⟩, []) := by
    simp only [step]
    rfl
  have h4 : step ⟨startSendingImmediately { idleState f with sendCur := some t }, false⟩ (.irq i) =
      (⟨(startPending i (withTelegram f t)).1, false⟩,
        (startPending i (withTelegram f t)).2) := by
    obtain ⟨g1, g2⟩ := hfo
    have hns : isSpike i (startSendingImmediately { idleState f with sendCur := some t }) = false := by
      unfold isSpike; rw [hc]; rfl
    simp only [step, isr, hns, Bool.false_eq_true, if_false]
    have hd : ∀ x : Bus, x.st = .wait50 → dispatch i x = wait50 i x := by
      intro x hx; unfold dispatch; rw [hx]
    rw [hd _ rfl, wait50_split i _ hc]
    have hne : ∀ x : Bus, x.repeatTel = false → x.collisions = 0#8 → retriesExhausted x = false := by
      intro x h1 h2
      unfold retriesExhausted
      rw [h1, h2]
      rfl
    rw [hne { startSendingImmediately { idleState f with sendCur := some t } with tSet := none } g2 g1]
    simp only [Bool.false_eq_true, if_false, List.nil_append]
    have e : startPending i { startSendingImmediately { idleState f with sendCur := some t } with
        tSet := none } = startPending i (withTelegram f t) := by
      have hd : ∀ (x : Bus), startDelay i { startSendingImmediately { idleState f with
          sendCur := some t } with tSet := none } = startDelay i (withTelegram f t) := by
        intro _; rfl
      unfold startPending
      simp only [startSendingImmediately, idleState, withTelegram, hft, hfc]
      obtain ⟨⟩ := f
      simp only at hft hfc
      subst hft hfc
      rfl
    rw [e]
  simp only [run, h1, h2, h3, h4]
  simp

end Verif.Bus
