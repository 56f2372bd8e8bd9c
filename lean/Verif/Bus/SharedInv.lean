import Verif.Bus.SharedLemmas

/-!
# Invariants of the shared send buffer, and the refinement
-/

namespace Verif.Bus

open Verif.Knx

/-- What the state of the buffer is while the link layer does not have it. -/
def mainState : Pc → BufState
  | .away | .found | .kick => .free
  | .filling => .acquired
  | _ => .sending

/-- The protocol invariant. -/
structure SInv (s : Shared) : Prop where
  own : s.bst = if s.cur then .sending else mainState s.pc
  pcs : s.cur = true → s.pc = .away ∨ s.pc = .kick
  high : ∀ len, s.pc = .high len → len = telegramSize s.buf
  low : ∀ own len, s.pc = .low own len → ∃ t, s.buf = upd t 1 (highByte own) ∧ len = telegramSize t
  sum : ∀ len, s.pc = .sum len → ∃ own t, s.buf = setSenderAddress t own ∧ len = telegramSize t
  ready : s.pc = .spin ∨ s.pc = .point → ∃ own t, s.buf = prepareTelegram own t (telegramSize t)
  rep : s.rep ≤ 3
  repc : 0 < s.rep → s.cur = true ∧ isControl s.buf = true

theorem control_eq (x : Byte) : ((x &&& 0xc3#8) &&& 0x80#8 ≠ 0#8) = (x.msb = true) := by
  revert x; decide +kernel

theorem size_ge (t : Buf) : 7 ≤ telegramSize t := by unfold telegramSize; omega

theorem prepare_at (own : Word) (t : Buf) (len j : Nat) (h1 : j ≠ 1) (h2 : j ≠ 2) (h3 : j ≠ len) :
    prepareTelegram own t len j = t j := by
  simp [prepareTelegram, setSenderAddress, upd, h1, h2, h3]

theorem prepare_size (own : Word) (t : Buf) :
    telegramSize (prepareTelegram own t (telegramSize t)) = telegramSize t := by
  have := size_ge t
  show 7 + (prepareTelegram own t (telegramSize t) 5 &&& 15#8).toNat = _
  rw [prepare_at own t _ 5 (by omega) (by omega) (by omega)]
  rfl

theorem prepare_control (own : Word) (t : Buf) :
    isControl (prepareTelegram own t (telegramSize t)) = isControl t := by
  have := size_ge t
  unfold isControl
  rw [prepare_at own t _ 6 (by omega) (by omega) (by omega)]

theorem marked_at (b : Bus) (t : Buf) (j : Nat) (h0 : j ≠ 0) (h1 : j ≠ telegramSize t) :
    marked b t j = t j := by
  unfold marked markRepeated
  split
  · simp [upd, h0, h1]
  · rfl

theorem marked_size (b : Bus) (t : Buf) : telegramSize (marked b t) = telegramSize t := by
  have := size_ge t
  show 7 + (marked b t 5 &&& 15#8).toNat = _
  rw [marked_at b t 5 (by omega) (by omega)]
  rfl

theorem marked_control (b : Bus) (t : Buf) : isControl (marked b t) = isControl t := by
  have := size_ge t
  unfold isControl
  rw [marked_at b t 6 (by omega) (by omega)]

/-- What one interrupt does. -/
inductive IrqStep (i : Irq) (s : Shared) (outs : List Out) (s' : Shared) : Prop
  /-- the buffer is not with the link layer and stays as it is -/
  | idle (h0 : s.cur = false) (h1 : again s i = false) (h2 : s'.cur = false) (h3 : s'.buf = s.buf)
      (h4 : s'.bst = s.bst) (h5 : s'.rep = s.rep) (h6 : s'.view = (isr i s.view).1)
      (h7 : outs = (isr i s.view).2) (h8 : reported outs = none)
  /-- the link layer keeps it -/
  | keep (h0 : s.cur = true) (h1 : again s i = false) (h2 : s'.cur = true)
      (h3 : s'.buf = s.buf ∨ s'.buf = marked s.view s.buf)
      (h4 : s'.bst = s.bst) (h5 : s'.rep = s.rep) (h6 : s'.view = (isr i s.view).1)
      (h7 : outs = (isr i s.view).2) (h8 : reported outs = none)
  /-- the link layer gives it back -/
  | done (ok : Bool) (h0 : s.cur = true) (h1 : again s i = false) (h2 : s'.cur = false)
      (h3 : s'.buf = s.buf) (h4 : s'.bst = .free)
      (h5 : s'.rep = if isControl s.buf then 0 else s.rep) (h6 : s'.view = (isr i s.view).1)
      (h7 : outs = (isr i s.view).2) (h8 : (isr i s.view).2 = [.finished ok])
  /-- the link layer gets it again -/
  | again (h0 : s.cur = true) (h1 : again s i = true) (h2 : s'.cur = true)
      (h3 : s'.buf = prepareTelegram i.own s.buf (telegramSize s.buf)) (h4 : s'.bst = .sending)
      (h5 : s'.rep = s.rep + 1) (h6 : isControl s.buf = true) (h7 : s.rep < 3)
      (h8 : (isr i s.view).2 = [.finished false])
      (h9 : s.view.st ≠ .wait50 ∧ outs = [.finished false] ∧
          s'.view = { (isr i s.view).1 with
            sendCur := some (prepareTelegram i.own s.buf (telegramSize s.buf)) } ∨
        s.view.st = .wait50 ∧ outs = [.finished false, .txBegin] ∧
          (s'.view, [Out.txBegin]) = startPending i (withTelegram (giveUp s.view)
            (prepareTelegram i.own s.buf (telegramSize s.buf))))

theorem isrS_step (i : Irq) (s : Shared) (hi : Inv s.view) (hn : NoRetryErr s.view)
    (hp : s.paused = false) :
    IrqStep i s (isrS i s).2 (isrS i s).1 ∧ (isrS i s).1.pc = s.pc ∧
      (isrS i s).1.paused = s.paused := by
  have hb := isr_buf i s.view hi hn
  have hcur : ∀ {t : Buf}, s.view.sendCur = some t → s.cur = true ∧ t = s.buf := by
    intro t h
    rw [view_cur] at h
    cases hc : s.cur <;> rw [hc] at h
    · cases h
    · exact ⟨rfl, by simpa using h.symm⟩
  have hcur0 : s.view.sendCur = none → s.cur = false := by
    intro h
    rw [view_cur] at h
    cases hc : s.cur
    · rfl
    · simp [hc] at h
  have hag : reported (isr i s.view).2 = none → again s i = false := by
    intro h; unfold again; rw [h]; simp
  unfold isrS
  cases hb with
  | none h0 h1 h2 =>
    simp only [h2]
    exact ⟨.idle (hcur0 h0) (hag h2) (by simp [Shared.back, h1]) (by simp [Shared.back, h1]) rfl rfl
      (view_back _ _) rfl h2, rfl, rfl⟩
  | keep t h0 h1 h2 =>
    simp only [h2]
    exact ⟨.keep (hcur h0).1 (hag h2) (by simp [Shared.back, h1])
      (Or.inl (by simp [Shared.back, h1, (hcur h0).2])) rfl rfl
      (view_back _ _) rfl h2, rfl, rfl⟩
  | mark t h0 h1 h2 =>
    simp only [h2]
    exact ⟨.keep (hcur h0).1 (hag h2) (by simp [Shared.back, h1])
      (Or.inr (by simp [Shared.back, h1, (hcur h0).2])) rfl rfl
      (view_back _ _) rfl h2, rfl, rfl⟩
  | done t ok h0 h1 h2 =>
    obtain ⟨hc, rfl⟩ := hcur h0
    have hr : reported (isr i s.view).2 = some ok := by rw [h2]; rfl
    simp only [hr]
    have hbuf : (s.back (isr i s.view).1).buf = s.buf := by simp [Shared.back, h1]
    have hcf : (s.back (isr i s.view).1).cur = false := by simp [Shared.back, h1]
    have hrep : (s.back (isr i s.view).1).rep = s.rep := rfl
    have hv := view_back s (isr i s.view).1
    have hpc : (s.back (isr i s.view).1).pc = s.pc := rfl
    have hpa : (s.back (isr i s.view).1).paused = s.paused := rfl
    generalize s.back (isr i s.view).1 = u at *
    unfold finishedSendingTelegram
    simp only [hbuf, hrep, control_eq]
    by_cases hk : (s.buf 6).msb = true
    · simp only [hk, if_true]
      by_cases ha : ok = false ∧ s.rep < 3
      · obtain ⟨rfl, ha2⟩ := ha
        have haga : again s i = true := by
          unfold again isControl
          rw [hp, hr, hk]
          simp [ha2]
        simp only [ha2, and_self, if_true]
        by_cases hst : s.view.st = .wait50
        · simp only [hst, if_true, and_self]
          have hfo : (giveUp s.view).repeatTel = false := (finish_other _).2.1
          have hsp : ∀ (f : Bus) (T : Buf), f.repeatTel = false →
              (startPending i (withTelegram f T)).2 = [.txBegin] ∧
              (startPending i (withTelegram f T)).1.sendCur = some T := by
            intro f T hf
            unfold startPending withTelegram
            simp [hf]
          obtain ⟨q1, q2⟩ := hsp _ (prepareTelegram i.own s.buf (telegramSize s.buf)) hfo
          refine ⟨.again hc haga ?_ ?_ rfl rfl hk ha2 h2 (Or.inr ⟨hst, ?_, ?_⟩), hpc, hpa⟩
          · simp [Shared.back, q2]
          · simp [Shared.back, q2]
          · rw [h2, q1]; rfl
          · rw [view_back]
            exact Prod.ext rfl q1.symm
        · simp only [hst, and_false, if_false]
          refine ⟨.again hc haga rfl rfl rfl rfl hk ha2 h2 (Or.inl ⟨hst, h2, ?_⟩), hpc, hpa⟩
          rw [← hv]
          rfl
      · have haga : again s i = false := by
          unfold again
          rw [hr]
          cases ok
          · have : ¬ s.rep < 3 := fun h => ha ⟨rfl, h⟩
            simp [this]
          · simp
        simp only [ha, if_false, hcf, Bool.false_eq_true, false_and]
        refine ⟨.done ok hc haga rfl rfl rfl ?_ ?_ rfl h2, hpc, hpa⟩
        · unfold isControl; rw [hk]; rfl
        · rw [← hv]
          unfold Shared.view
          simp [hcf]
    · have haga : again s i = false := by
        unfold again isControl
        rw [eq_false_of_ne_true hk]
        simp
      simp only [hk, if_false, hcf, Bool.false_eq_true, false_and]
      refine ⟨.done ok hc haga rfl rfl rfl ?_ ?_ rfl h2, hpc, hpa⟩
      · unfold isControl; rw [eq_false_of_ne_true hk]; rfl
      · rw [← hv]
        unfold Shared.view
        simp [hcf]

/-! ## Runs of the link layer -/

theorem queued_append (s : Sys) (es fs : List Ev) :
    queued s (es ++ fs) = queued s es ++ queued (run s es).1 fs := by
  induction es generalizing s with
  | nil => simp [queued, run]
  | cons e es ih => simp [queued, run, ih, List.append_assoc]

theorem runS_append (s : Shared) (es fs : List SEv) :
    runS s (es ++ fs) =
      ((runS (runS s es).1 fs).1, (runS s es).2 ++ (runS (runS s es).1 fs).2) := by
  induction es generalizing s with
  | nil => simp [runS]
  | cons e es ih => simp [runS, ih]

theorem givens_append (s : Shared) (es fs : List SEv) :
    givens s (es ++ fs) = givens s es ++ givens (runS s es).1 fs := by
  induction es generalizing s with
  | nil => simp [givens, runS]
  | cons e es ih => simp [givens, runS, ih, List.append_assoc]

theorem regivens_append (s : Shared) (es fs : List SEv) :
    regivens s (es ++ fs) = regivens s es ++ regivens (runS s es).1 fs := by
  induction es generalizing s with
  | nil => simp [regivens, runS]
  | cons e es ih => simp [regivens, runS, ih, List.append_assoc]

/-- The facts about the link layer that hold after every history. -/
structure LInv (s : Sys) : Prop where
  inv : SysInv s
  err : NoRetryErr s.bus
  armed : s.paused = false → Armed s.bus
  mask : MaskInv s.bus

theorem LInv.run {s : Sys} (h : LInv s) (es : List Ev) : LInv (run s es).1 :=
  ⟨run_inv h.inv es, run_err s es h.err, run_armed es s h.armed, run_mask s es h.mask⟩

theorem boot_linv : LInv boot :=
  ⟨boot_inv, boot_err, fun _ => armed_of rfl rfl, fun hx => by cases hx⟩

/-- A step is a run of the link layer. -/
def Refines (s : Shared) (e : SEv) : Prop :=
  ∃ es', run s.sys es' = ((stepS s e).1.sys, (stepS s e).2) ∧
    queued s.sys es' = given s e ++ regiven s e

theorem refines_nil {s : Shared} {e : SEv} (h1 : (stepS s e).1.sys = s.sys) (h2 : (stepS s e).2 = [])
    (h3 : given s e = []) (h4 : regiven s e = []) : Refines s e :=
  ⟨[], by rw [h1, h2]; rfl, by rw [h3, h4]; rfl⟩

theorem call_sys (s : Shared) (e : Ev) : (s.call e).1.sys = (step s.sys e).1 := by
  show Sys.mk _ _ = _
  have : ({ s.back (step ⟨s.view, s.paused⟩ e).1.bus with
    paused := (step ⟨s.view, s.paused⟩ e).1.paused } : Shared).view =
      (step ⟨s.view, s.paused⟩ e).1.bus := view_back s _
  unfold Shared.call
  simp only [this]
  rfl

theorem refines_call {s : Shared} {e : SEv} (v : Ev) (h : (stepS s e).1.sys = (s.call v).1.sys)
    (h2 : (stepS s e).2 = (s.call v).2) (h3 : given s e = []) (h4 : regiven s e = [])
    (hv : ∀ own t len, v ≠ .queue own t len) : Refines s e := by
  refine ⟨[v], ?_, ?_⟩
  · rw [h, h2, call_sys]
    simp only [run, List.append_nil]
    rfl
  · rw [h3, h4]
    cases v <;> first | rfl | exact absurd rfl (hv _ _ _)

theorem refines_irq (s : Shared) (i : Irq) (hl : LInv s.sys) : Refines s (.irq i) := by
  cases hp : s.paused
  · have hstep : stepS s (.irq i) = isrS i s := by simp [stepS, hp]
    obtain ⟨hk, _, hpa⟩ := isrS_step i s hl.inv.inv hl.err hp
    have hirq : step s.sys (.irq i) = (⟨(isr i s.view).1, false⟩, (isr i s.view).2) := by
      simp [step, Shared.sys, hp]
    rw [← hstep] at hk hpa
    have plain : again s i = false → (stepS s (.irq i)).1.view = (isr i s.view).1 →
        (stepS s (.irq i)).2 = (isr i s.view).2 → Refines s (.irq i) := by
      intro h1 h2 h3
      refine ⟨[.irq i], ?_, ?_⟩
      · simp only [run, List.append_nil, hirq, h3]
        unfold Shared.sys
        rw [h2, hpa, hp]
      · simp [queued, given, regiven, h1]
    cases hk with
    | idle h0 h1 h2 h3 h4 h5 h6 h7 h8 => exact plain h1 h6 h7
    | keep h0 h1 h2 h3 h4 h5 h6 h7 h8 => exact plain h1 h6 h7
    | done ok h0 h1 h2 h3 h4 h5 h6 h7 h8 => exact plain h1 h6 h7
    | again h0 h1 h2 h3 h4 h5 h6 h7 h8 h9 =>
      have hnone : (isr i s.view).1.sendCur = none := by
        have hb := isr_buf i s.view hl.inv.inv hl.err
        cases hb with
        | none _ _ h => rw [h8] at h; cases h
        | keep _ _ _ h => rw [h8] at h; cases h
        | mark _ _ _ h => rw [h8] at h; cases h
        | done _ _ _ h _ => exact h
      rcases h9 with ⟨q1, q2, q3⟩ | ⟨q1, q2, q3⟩
      · refine ⟨[.irq i, .queue i.own s.buf (telegramSize s.buf)], ?_, ?_⟩
        · have hq : step ⟨(isr i s.view).1, false⟩ (.queue i.own s.buf (telegramSize s.buf)) =
              (⟨{ (isr i s.view).1 with
                sendCur := some (prepareTelegram i.own s.buf (telegramSize s.buf)) }, false⟩, []) := by
            simp only [step]
            rw [hnone]
          simp only [run, hirq, hq, List.append_nil, q2, h8]
          unfold Shared.sys
          rw [q3, hpa, hp]
        · simp only [queued, hirq, hnone, given, regiven, h1]
          rfl
      · refine ⟨[.irq i, .queue i.own s.buf (telegramSize s.buf), .kick, .irq i], ?_, ?_⟩
        · have hcap : s.view.capInt = true :=
            (hl.armed hp).edge (by show s.view.st ≠ _; rw [q1]; decide)
              (by show s.view.st ≠ _; rw [q1]; decide)
          rw [wait50_again i s.sys _ i.own (telegramSize s.buf) hl.inv.inv hp hcap q1 false h8 rfl, q2]
          have e1 := congrArg Prod.fst q3
          have e2 := congrArg Prod.snd q3
          simp only at e1 e2
          show ((⟨(startPending i (withTelegram (giveUp s.view) _)).1, false⟩ : Sys), _) = _
          rw [← e1]
          show (_, [Out.finished false] ++ (startPending i (withTelegram (giveUp s.view) _)).2) = _
          rw [← e2]
          unfold Shared.sys
          rw [hpa, hp]
          rfl
        · simp only [queued, hirq, hnone, given, regiven, h1]
          rfl
  · refine refines_nil ?_ ?_ rfl ?_
    · simp [stepS, hp]
    · simp [stepS, hp]
    · simp [regiven, again, hp]

theorem refines (s : Shared) (e : SEv) (hl : LInv s.sys) (h : SInv s) : Refines s e := by
  -- steps of the main program while the link layer does not have the buffer
  have mine : ∀ (x : Shared), s.cur = false → x.cur = false → x.bus = s.bus → x.paused = s.paused →
      x.sys = s.sys := by
    intro x h1 h2 h3 h4
    unfold Shared.sys Shared.view
    rw [h1, h2, h3, h4]
    rfl
  have hcur : ∀ {p : Pc}, s.pc = p → p ≠ .away → p ≠ .kick → s.cur = false := by
    intro p hp h1 h2
    cases hc : s.cur
    · rfl
    · rcases h.pcs hc with h3 | h3
      · exact absurd (hp.symm.trans h3) h1
      · exact absurd (hp.symm.trans h3) h2
  cases e with
  | irq i => exact refines_irq s i hl
  | test =>
    refine refines_nil ?_ ?_ rfl rfl <;> simp only [stepS] <;> split <;> rfl
  | take =>
    refine refines_nil ?_ ?_ rfl rfl <;> simp only [stepS] <;> split <;> rfl
  | poke j v =>
    refine refines_nil ?_ ?_ rfl rfl <;> simp only [stepS] <;> split
    · next hp => exact mine _ (hcur hp (by decide) (by decide)) (hcur hp (by decide) (by decide)) rfl rfl
    · rfl
    · rfl
    · rfl
  | drop =>
    refine refines_nil ?_ ?_ rfl rfl <;> simp only [stepS] <;> split <;> rfl
  | send =>
    refine refines_nil ?_ ?_ rfl rfl <;> simp only [stepS] <;> split <;> rfl
  | high own =>
    refine refines_nil ?_ ?_ rfl rfl <;> simp only [stepS] <;> split
    · next len hp => exact mine _ (hcur hp (by simp) (by simp)) (hcur hp (by simp) (by simp)) rfl rfl
    · rfl
    · rfl
    · rfl
  | low =>
    refine refines_nil ?_ ?_ rfl rfl <;> simp only [stepS] <;> split
    · next own len hp => exact mine _ (hcur hp (by simp) (by simp)) (hcur hp (by simp) (by simp)) rfl rfl
    · rfl
    · rfl
    · rfl
  | sum =>
    refine refines_nil ?_ ?_ rfl rfl <;> simp only [stepS] <;> split
    · next len hp => exact mine _ (hcur hp (by simp) (by simp)) (hcur hp (by simp) (by simp)) rfl rfl
    · rfl
    · rfl
    · rfl
  | look =>
    refine refines_nil ?_ ?_ rfl rfl <;> simp only [stepS] <;> split <;> rfl
  | point =>
    by_cases hp : s.pc = .point
    · have hc := hcur hp (by decide) (by decide)
      obtain ⟨own, t, ht⟩ := h.ready (Or.inr hp)
      have hnone : s.sys.bus.sendCur = none := by
        show (if s.cur then some s.buf else none) = none
        rw [hc]; rfl
      refine ⟨[.queue own t (telegramSize t)], ?_, ?_⟩
      · have hq : step s.sys (.queue own t (telegramSize t)) =
            ({ s.sys with bus := { s.sys.bus with sendCur := some s.buf } }, []) := by
          simp only [step]
          rw [hnone, ← ht]
        simp only [run, hq, List.append_nil, stepS, hp, if_true]
        rfl
      · simp only [queued, hnone, given, regiven, hp, ← ht]
        rfl
    · refine refines_nil ?_ ?_ ?_ rfl
      · simp only [stepS, hp, if_false]
      · simp only [stepS, hp, if_false]
      · simp only [given, hp, if_false]
  | kick =>
    by_cases hp : s.pc = .kick
    · exact refines_call .kick (by simp only [stepS, hp, if_true]; rfl)
        (by simp only [stepS, hp, if_true]) rfl rfl (by simp)
    · refine refines_nil ?_ ?_ rfl rfl <;> simp only [stepS, hp, if_false]
  | discard => exact refines_call .discard rfl rfl rfl rfl (by simp)
  | pause w => exact refines_call (.pause w) rfl rfl rfl rfl (by simp)
  | resume => exact refines_call .resume rfl rfl rfl rfl (by simp)
  | maxRetries n => exact refines_call (.maxRetries n) rfl rfl rfl rfl (by simp)
  | maxBusyRetries n => exact refines_call (.maxBusyRetries n) rfl rfl rfl rfl (by simp)

/-! ## Preservation -/

theorem step_cur (s : Sys) (v : Ev) (h1 : ∀ i, v ≠ .irq i) (h2 : ∀ o t l, v ≠ .queue o t l) :
    (step s v).1.bus.sendCur = s.bus.sendCur := by
  cases v <;> simp only [step]
  case irq i => exact absurd rfl (h1 i)
  case queue o t l => exact absurd rfl (h2 o t l)
  case kick => split <;> rfl
  case pause => split <;> rfl
  case resume => split <;> rfl

theorem call_buf (s : Shared) (v : Ev) (h1 : ∀ i, v ≠ .irq i) (h2 : ∀ o t l, v ≠ .queue o t l) :
    (s.call v).1.cur = s.cur ∧ (s.call v).1.buf = s.buf ∧ (s.call v).1.bst = s.bst ∧
    (s.call v).1.rep = s.rep ∧ (s.call v).1.pc = s.pc := by
  have h : (step ⟨s.view, s.paused⟩ v).1.bus.sendCur = if s.cur then some s.buf else none :=
    step_cur ⟨s.view, s.paused⟩ v h1 h2
  unfold Shared.call Shared.back
  simp only [h]
  cases s.cur <;> simp

theorem sinv_of {s s' : Shared} (h : SInv s) (h1 : s'.cur = s.cur) (h2 : s'.buf = s.buf)
    (h3 : s'.bst = s.bst) (h4 : s'.rep = s.rep) (h5 : s'.pc = s.pc) : SInv s' := by
  obtain ⟨a1, a2, a3, a4, a5, a6, a7, a8⟩ := h
  constructor
  · rw [h3, h1, h5]; exact a1
  · rw [h1, h5]; exact a2
  · rw [h5, h2]; exact a3
  · rw [h5, h2]; exact a4
  · rw [h5, h2]; exact a5
  · rw [h5, h2]; exact a6
  · rw [h4]; exact a7
  · rw [h4, h1, h2]; exact a8

theorem stepS_sinv (s : Shared) (e : SEv) (hl : LInv s.sys) (h : SInv s) : SInv (stepS s e).1 := by
  have hcur : ∀ {p : Pc}, s.pc = p → p ≠ .away → p ≠ .kick → s.cur = false := by
    intro p hp h1 h2
    cases hc : s.cur
    · rfl
    · rcases h.pcs hc with h3 | h3
      · exact absurd (hp.symm.trans h3) h1
      · exact absurd (hp.symm.trans h3) h2
  have hrep : s.cur = false → s.rep = 0 := by
    intro hc
    cases hr : s.rep with
    | zero => rfl
    | succ n =>
      have := (h.repc (by omega)).1
      rw [hc] at this
      cases this
  cases e with
  | irq i =>
    cases hp : s.paused
    · have hstep : stepS s (.irq i) = isrS i s := by simp [stepS, hp]
      obtain ⟨hk, hpc, _⟩ := isrS_step i s hl.inv.inv hl.err hp
      rw [hstep]
      generalize isrS i s = r at *
      obtain ⟨s', outs⟩ := r
      simp only at hk hpc ⊢
      have pcc : s.cur = true → s'.pc = .away ∨ s'.pc = .kick := by
        rw [hpc]; exact h.pcs
      have nopc : ∀ {p : Pc} {q : Prop}, s.cur = true → s'.pc = p → p ≠ .away → p ≠ .kick → q := by
        intro p q hc hp h1 h2
        rcases pcc hc with h3 | h3
        · exact absurd (hp.symm.trans h3) h1
        · exact absurd (hp.symm.trans h3) h2
      cases hk with
      | idle h0 h1 h2 h3 h4 h5 h6 h7 h8 => exact sinv_of h (h2.trans h0.symm) h3 h4 h5 hpc
      | keep h0 h1 h2 h3 h4 h5 h6 h7 h8 =>
        refine ⟨?_, fun _ => pcc h0, fun _ hx => nopc h0 hx (by simp) (by simp),
          fun _ _ hx => nopc h0 hx (by simp) (by simp), fun _ hx => nopc h0 hx (by simp) (by simp),
          ?_, by rw [h5]; exact h.rep, ?_⟩
        · rw [h4, h2, h.own, h0]; rfl
        · rintro (hx | hx) <;> exact nopc h0 hx (by simp) (by simp)
        · intro hr
          rw [h5] at hr
          refine ⟨h2, ?_⟩
          rcases h3 with h3 | h3
          · rw [h3]; exact (h.repc hr).2
          · rw [h3, marked_control]; exact (h.repc hr).2
      | done ok h0 h1 h2 h3 h4 h5 h6 h7 h8 =>
        refine ⟨?_, (fun hx => by rw [h2] at hx; cases hx), fun _ hx => nopc h0 hx (by simp) (by simp),
          fun _ _ hx => nopc h0 hx (by simp) (by simp), fun _ hx => nopc h0 hx (by simp) (by simp),
          ?_, ?_, ?_⟩
        · rw [h4, h2]
          rcases pcc h0 with hx | hx <;> rw [hx] <;> rfl
        · rintro (hx | hx) <;> exact nopc h0 hx (by simp) (by simp)
        · rw [h5]; split
          · omega
          · exact h.rep
        · intro hr
          exfalso
          rw [h5] at hr
          by_cases hc : isControl s.buf = true
          · rw [hc] at hr; simp at hr
          · simp only [hc, if_false, Bool.false_eq_true] at hr
            exact hc (h.repc hr).2
      | again h0 h1 h2 h3 h4 h5 h6 h7 h8 h9 =>
        refine ⟨?_, fun _ => pcc h0, fun _ hx => nopc h0 hx (by simp) (by simp),
          fun _ _ hx => nopc h0 hx (by simp) (by simp), fun _ hx => nopc h0 hx (by simp) (by simp),
          ?_, by omega, ?_⟩
        · rw [h4, h2]; rfl
        · rintro (hx | hx) <;> exact nopc h0 hx (by simp) (by simp)
        · intro _
          refine ⟨h2, ?_⟩
          rw [h3, prepare_control]; exact h6
    · simp only [stepS, hp, if_true]; exact h
  | test =>
    simp only [stepS]
    split
    · next hx =>
      have hc : s.cur = false := by
        cases hc : s.cur
        · rfl
        · have := h.own
          rw [hc, hx.2] at this
          cases this
      refine ⟨?_, ?_, ?_, ?_, ?_, ?_, h.rep, h.repc⟩ <;> simp [hc, mainState, hx.2]
    · exact h
  | take =>
    simp only [stepS]
    split
    · next hx =>
      have hc := hcur hx (by decide) (by decide)
      refine ⟨?_, ?_, ?_, ?_, ?_, ?_, h.rep, h.repc⟩ <;> simp [hc, mainState]
    · exact h
  | poke j v =>
    simp only [stepS]
    split
    · next hx =>
      have hc := hcur hx (by decide) (by decide)
      refine ⟨h.own, h.pcs, ?_, ?_, ?_, ?_, h.rep, ?_⟩ <;> simp [hc, hx, hrep hc]
    · exact h
  | drop =>
    simp only [stepS]
    split
    · next hx =>
      have hc := hcur hx (by decide) (by decide)
      refine ⟨?_, ?_, ?_, ?_, ?_, ?_, h.rep, h.repc⟩ <;> simp [hc, mainState]
    · exact h
  | send =>
    simp only [stepS]
    split
    · next hx =>
      have hc := hcur hx (by decide) (by decide)
      refine ⟨?_, ?_, ?_, ?_, ?_, ?_, h.rep, h.repc⟩ <;> simp [hc, mainState]
    · exact h
  | high own =>
    simp only [stepS]
    split
    · next len hx =>
      have hc := hcur hx (by simp) (by simp)
      have ho := h.own
      rw [hc, hx] at ho
      refine ⟨?_, ?_, ?_, ?_, ?_, ?_, h.rep, ?_⟩ <;> simp [hc, mainState, hrep hc]
      · exact ho
      · exact ⟨s.buf, rfl, h.high _ hx⟩
    · exact h
  | low =>
    simp only [stepS]
    split
    · next own len hx =>
      have hc := hcur hx (by simp) (by simp)
      have ho := h.own
      rw [hc, hx] at ho
      refine ⟨?_, ?_, ?_, ?_, ?_, ?_, h.rep, ?_⟩ <;> simp [hc, mainState, hrep hc]
      · exact ho
      · obtain ⟨t, h1, h2⟩ := h.low _ _ hx
        exact ⟨own, t, by rw [h1]; rfl, h2⟩
    · exact h
  | sum =>
    simp only [stepS]
    split
    · next len hx =>
      have hc := hcur hx (by simp) (by simp)
      have ho := h.own
      rw [hc, hx] at ho
      refine ⟨?_, ?_, ?_, ?_, ?_, ?_, h.rep, ?_⟩ <;> simp [hc, mainState, hrep hc]
      · exact ho
      · obtain ⟨own, t, h1, h2⟩ := h.sum _ hx
        exact ⟨own, t, by rw [h1, h2]; rfl⟩
    · exact h
  | look =>
    simp only [stepS]
    split
    · next hx =>
      have ho := h.own
      rw [hx.2, hx.1] at ho
      refine ⟨?_, ?_, ?_, ?_, ?_, ?_, h.rep, h.repc⟩ <;> simp [hx.2, mainState]
      · exact ho
      · exact h.ready (Or.inl hx.1)
    · exact h
  | point =>
    simp only [stepS]
    split
    · next hx =>
      have hc := hcur hx (by simp) (by simp)
      have ho := h.own
      rw [hc, hx] at ho
      refine ⟨?_, ?_, ?_, ?_, ?_, ?_, h.rep, ?_⟩ <;> simp [hrep hc]
      exact ho
    · exact h
  | kick =>
    simp only [stepS]
    split
    · next hx =>
      obtain ⟨c1, c2, c3, c4, c5⟩ := call_buf s .kick (by simp) (by simp)
      have ho := h.own
      rw [hx] at ho
      refine ⟨?_, ?_, ?_, ?_, ?_, ?_, by rw [c4]; exact h.rep, by simp only [c4, c1, c2]; exact h.repc⟩
        <;> simp [c1, c3]
      exact ho
    · exact h
  | discard =>
    obtain ⟨c1, c2, c3, c4, c5⟩ := call_buf s .discard (by simp) (by simp)
    exact sinv_of h c1 c2 c3 c4 c5
  | pause w =>
    obtain ⟨c1, c2, c3, c4, c5⟩ := call_buf s (.pause w) (by simp) (by simp)
    exact sinv_of h c1 c2 c3 c4 c5
  | resume =>
    obtain ⟨c1, c2, c3, c4, c5⟩ := call_buf s .resume (by simp) (by simp)
    exact sinv_of h c1 c2 c3 c4 c5
  | maxRetries n =>
    obtain ⟨c1, c2, c3, c4, c5⟩ := call_buf s (.maxRetries n) (by simp) (by simp)
    exact sinv_of h c1 c2 c3 c4 c5
  | maxBusyRetries n =>
    obtain ⟨c1, c2, c3, c4, c5⟩ := call_buf s (.maxBusyRetries n) (by simp) (by simp)
    exact sinv_of h c1 c2 c3 c4 c5

/-- What holds after every history. -/
structure SGood (s : Shared) : Prop where
  link : LInv s.sys
  own : SInv s

theorem stepS_good {s : Shared} (h : SGood s) (e : SEv) : SGood (stepS s e).1 := by
  obtain ⟨es', h1, _⟩ := refines s e h.link h.own
  refine ⟨?_, stepS_sinv s e h.link h.own⟩
  have := h.link.run es'
  rwa [h1] at this

theorem runS_good {s : Shared} (h : SGood s) (es : List SEv) : SGood (runS s es).1 := by
  induction es generalizing s with
  | nil => exact h
  | cons e es ih => exact ih (stepS_good h e)

theorem boot_good : SGood bootS :=
  ⟨boot_linv, by
    refine ⟨rfl, ?_, ?_, ?_, ?_, ?_, ?_, ?_⟩ <;> simp [bootS]⟩

theorem runS_refines {s : Shared} (h : SGood s) (es : List SEv) :
    ∃ es', run s.sys es' = ((runS s es).1.sys, (runS s es).2) ∧ queued s.sys es' = handedOver s es := by
  induction es generalizing s with
  | nil => exact ⟨[], rfl, rfl⟩
  | cons e es ih =>
    obtain ⟨a, a1, a2⟩ := refines s e h.link h.own
    obtain ⟨b, b1, b2⟩ := ih (stepS_good h e)
    refine ⟨a ++ b, ?_, ?_⟩
    · rw [run_append, a1, b1]; rfl
    · rw [queued_append, a1, a2, b2]; rfl

end Verif.Bus
