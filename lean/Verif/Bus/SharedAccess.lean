import Verif.Bus.SharedLive
import Verif.Bus.PropsAccess

/-!
# C93 with the shared send buffer

The timed device of `AccessSpec.lean`, with the shared send buffer of `SharedModel.lean`: telegrams are
filled and handed over one memory access at a time, and connection control telegrams are handed over again
from inside the completion report.
-/

namespace Verif.Bus

open Verif.Knx

/-- As `TSys`, with the shared buffer. -/
structure TShared where
  z : Nat
  now : Nat
  last : Nat
  s : Shared

/-- The link layer of it. -/
def TShared.lower (T : TShared) : TSys := ⟨T.z, T.now, T.last, T.s.sys⟩

/-- What happens to it: as `TEv`, with the steps of `SharedModel.lean`. -/
inductive TSEv
  | irq (k : Option Nat) (h : Nat) (i : Irq)
  | call (t : Nat) (e : SEv)

/-- The event is possible, as in `AccessSpec.lean`. -/
def PossibleS (lat : Nat) (T : TShared) : TSEv → Prop
  | .irq k h i => Possible lat T.lower (.irq k h i)
  | .call t e => T.now ≤ t ∧ e.isIrq = false

/-- The timer has not been written yet in this step (bookkeeping of `Verif.Bus.Model`). -/
def Shared.fresh (s : Shared) : Shared := { s with bus := { s.bus with tSet := none } }

/-- What the event does. -/
def tnextS (T : TShared) : TSEv → TShared × List Out
  | .irq k h i =>
    let r := stepS T.s (.irq (irqAt T.lower k h i))
    ({ z := zeroAt (h - counter T.s.bus T.z h) h r.1.bus.tSet
       now := h, last := k.getD T.last, s := r.1 }, r.2)
  | .call t e =>
    let r := stepS T.s.fresh e
    ({ T with z := zeroAt T.z t r.1.bus.tSet, now := t, s := r.1 }, r.2)

/-- A possible history. -/
def ValidS (lat : Nat) : TShared → List TSEv → Prop
  | _, [] => True
  | T, e :: es => PossibleS lat T e ∧ ValidS lat (tnextS T e).1 es

/-- The state after it. -/
def trunS : TShared → List TSEv → TShared
  | T, [] => T
  | T, e :: es => trunS (tnextS T e).1 es

/-- A device started at time `t`. -/
def tbootS (t : Nat) : TShared := ⟨t, t, t, bootS⟩

/-! ## The invariant -/

/-- As `Turn`, with the ownership of the buffer. -/
structure TurnS (lat : Nat) (T : TShared) : Prop where
  turn : Turn lat T.lower
  good : SGood T.s

/-- `Turn` does not depend on the telegram. -/
theorem turn_of {lat z now last : Nat} {s s' : Sys} (I : Turn lat ⟨z, now, last, s⟩)
    (hp : s'.paused = s.paused) (h1 : s'.bus.st = s.bus.st) (h2 : s'.bus.mTime = s.bus.mTime)
    (h3 : s'.bus.capInt = s.bus.capInt) (h4 : s'.bus.tReset = s.bus.tReset)
    (h5 : s'.bus.tInt = s.bus.tInt) (h6 : s'.bus.mPwm = s.bus.mPwm) : Turn lat ⟨z, now, last, s'⟩ := by
  refine ⟨I.zn, I.ln, fun h => ?_, fun h => ?_, fun h => ?_, fun h => ?_⟩
  · have := I.pace (hp ▸ h)
    unfold Pace at this ⊢
    simp only at this ⊢
    rw [h1, h2, h4, h6]; exact this
  · have := I.armed (hp ▸ h)
    exact ⟨fun hx => by
      have := this.timer (by rw [← h1]; exact hx)
      simp only at this ⊢
      rw [h5]; exact this, fun hx hy => by
      have := this.edge (by rw [← h1]; exact hx) (by rw [← h1]; exact hy)
      simp only at this ⊢
      rw [h3]; exact this⟩
  · have := I.fit (hp ▸ h)
    unfold fits at this ⊢
    simp only at this ⊢
    rw [h1, h2, h3, h4]; exact this
  · have := I.notIdle (hp ▸ h)
    simp only at this ⊢
    rw [h1]; exact this

theorem turn_later {lat : Nat} {T : TSys} (I : Turn lat T) (t : Nat) (ht : T.now ≤ t) :
    Turn lat { T with now := t } := by
  have hz := I.zn
  have hl := I.ln
  refine ⟨Nat.le_trans hz ht, Nat.le_trans hl ht, I.pace, I.armed, fun h => ?_, I.notIdle⟩
  have := I.fit h
  unfold fits at this ⊢
  simp only at this ⊢
  cases hs : T.sys.bus.st <;> rw [hs] at this <;> dsimp only at this ⊢
  case idle => omega
  all_goals exact this

/-- The telegram handed over again in WAIT_50BT is started as one that was waiting. -/
theorem startPending_wait50 (i : Irq) (b : Bus) (t : Buf) (hs : b.st = .wait50) (hc : i.cap = false) :
    isr i (withTelegram (giveUp b) t) = startPending i (withTelegram (giveUp b) t) := by
  have hfo : (giveUp b).collisions = 0#8 ∧ (giveUp b).repeatTel = false :=
    ⟨(finish_other _).1, (finish_other _).2.1⟩
  have hft : (giveUp b).tSet = none := by
    unfold giveUp finishSendingTelegram; split <;> rfl
  have hst : (giveUp b).st = .wait50 := by
    unfold giveUp; rw [(finish_same _).1]; exact hs
  generalize giveUp b = f at *
  have hns : isSpike i (withTelegram f t) = false := by unfold isSpike; rw [hc]; rfl
  have hd : ∀ x : Bus, x.st = .wait50 → dispatch i x = wait50 i x := by
    intro x hx; unfold dispatch; rw [hx]
  have hx : ({ withTelegram f t with tSet := none } : Bus) = withTelegram f t := by
    obtain ⟨⟩ := f
    simp only at hft
    subst hft
    rfl
  simp only [isr, hns, Bool.false_eq_true, if_false]
  rw [hx, hd (withTelegram f t) hst, wait50_split i _ hc]
  have hne : retriesExhausted (withTelegram f t) = false := by
    unfold retriesExhausted
    have h1 : (withTelegram f t).repeatTel = false := hfo.2
    have h2 : (withTelegram f t).collisions = 0#8 := hfo.1
    rw [h1, h2]; rfl
  rw [hne]
  simp

/-- The device as if the telegram handed over again had been waiting. -/
def waiting (T : TShared) (own : Word) : TSys :=
  ⟨T.z, T.now, T.last,
    ⟨withTelegram (giveUp T.s.view) (prepareTelegram own T.s.buf (telegramSize T.s.buf)), T.s.paused⟩⟩

theorem giveUp_same (b : Bus) : (giveUp b).st = b.st ∧ (giveUp b).mTime = b.mTime ∧
    (giveUp b).capInt = b.capInt ∧ (giveUp b).tReset = b.tReset ∧ (giveUp b).tInt = b.tInt ∧
    (giveUp b).mPwm = b.mPwm := by
  unfold giveUp finishSendingTelegram
  split <;> exact ⟨rfl, rfl, rfl, rfl, rfl, rfl⟩

theorem waiting_turn {lat : Nat} {T : TShared} (I : Turn lat T.lower) (own : Word) :
    Turn lat (waiting T own) := by
  obtain ⟨g1, g2, g3, g4, g5, g6⟩ := giveUp_same T.s.view
  exact turn_of (s := T.s.sys) I rfl g1 g2 g3 g4 g5 g6

theorem waiting_counter (T : TShared) (own : Word) (x : Nat) :
    counter (waiting T own).sys.bus T.z x = counter T.s.view T.z x := by
  obtain ⟨g1, g2, g3, g4, g5, g6⟩ := giveUp_same T.s.view
  have h1 : (waiting T own).sys.bus.tReset = T.s.view.tReset := g4
  have h2 : (waiting T own).sys.bus.mTime = T.s.view.mTime := g2
  unfold counter
  rw [h1, h2]

theorem waiting_irq (T : TShared) (own : Word) (k : Option Nat) (h : Nat) (i : Irq) :
    irqAt (waiting T own) k h i = irqAt T.lower k h i := by
  obtain ⟨g1, g2, g3, g4, g5, g6⟩ := giveUp_same T.s.view
  have h1 : (waiting T own).sys.bus.tInt = T.s.view.tInt := g5
  have h2 : (waiting T own).sys.bus.mTime = T.s.view.mTime := g2
  have h3 := waiting_counter T own
  unfold irqAt
  rw [h1, h2, show (waiting T own).z = T.z from rfl, h3, h3]
  rfl

theorem waiting_possible {lat : Nat} {T : TShared} {k : Option Nat} {h : Nat} {i : Irq} (own : Word)
    (hp : Possible lat T.lower (.irq k h i)) : Possible lat (waiting T own) (.irq k h i) := by
  obtain ⟨g1, g2, g3, g4, g5, g6⟩ := giveUp_same T.s.view
  have h2 : (waiting T own).sys.bus.mTime = T.s.view.mTime := g2
  have h3 : (waiting T own).sys.bus.capInt = T.s.view.capInt := g3
  obtain ⟨p1, p2, p3, p4, p5⟩ := hp
  refine ⟨p1, p2, ?_, ?_, ?_⟩
  · rw [waiting_irq]; exact p3
  · rw [h3]; exact p4
  · rw [waiting_irq, h2]; exact p5

/-- What one run of the handler does, in terms of the link layer with copies. -/
theorem irq_lower {lat : Nat} {T : TShared} {k : Option Nat} {h : Nat} {i : Irq} (I : TurnS lat T)
    (hp : Possible lat T.lower (.irq k h i)) :
    let r := tnextS T (.irq k h i)
    let q := tnext T.lower (.irq k h i)
    (r.1.lower = q.1 ∧ r.2 = q.2) ∨
    (r.1.z = q.1.z ∧ r.1.now = q.1.now ∧ r.1.last = q.1.last ∧ r.2 = [.finished false] ∧
      ∃ t, r.1.s.sys = { q.1.sys with bus := withTelegram q.1.sys.bus t }) ∨
    (r.1.lower = (tnext (waiting T i.own) (.irq k h i)).1 ∧
      r.2 = .finished false :: (tnext (waiting T i.own) (.irq k h i)).2) := by
  have hpz : T.s.paused = false := hp.1
  have hstep : stepS T.s (.irq (irqAt T.lower k h i)) = isrS (irqAt T.lower k h i) T.s := by
    simp [stepS, hpz]
  have hl : tnext T.lower (.irq k h i) =
      (⟨zeroAt (h - counter T.s.view T.z h) h (isr (irqAt T.lower k h i) T.s.view).1.tSet, h,
        k.getD T.last, ⟨(isr (irqAt T.lower k h i) T.s.view).1, false⟩⟩,
        (isr (irqAt T.lower k h i) T.s.view).2) := by
    simp only [tnext, step, TShared.lower, Shared.sys, hpz, Bool.false_eq_true, if_false]
  have hw : tnext (waiting T i.own) (.irq k h i) =
      (⟨zeroAt (h - counter T.s.view T.z h) h
          (isr (irqAt T.lower k h i) (waiting T i.own).sys.bus).1.tSet, h,
        k.getD T.last, ⟨(isr (irqAt T.lower k h i) (waiting T i.own).sys.bus).1, false⟩⟩,
        (isr (irqAt T.lower k h i) (waiting T i.own).sys.bus).2) := by
    have hpw : (waiting T i.own).sys.paused = false := hpz
    simp only [tnext, step, hpw, Bool.false_eq_true, if_false, waiting_irq]
    rw [show (waiting T i.own).z = T.z from rfl, waiting_counter]
    rfl
  have hcnt : counter T.s.bus T.z h = counter T.s.view T.z h := rfl
  obtain ⟨hk, hpc, hpa⟩ := isrS_step (irqAt T.lower k h i) T.s I.good.link.inv.inv I.good.link.err hpz
  have hown : (irqAt T.lower k h i).own = i.own := rfl
  simp only [tnextS, hstep, hl, hw, hcnt]
  generalize irqAt T.lower k h i = j at *
  have hset : ∀ x : Shared, x.bus.tSet = x.view.tSet := fun _ => rfl
  have plain : (isrS j T.s).1.view = (isr j T.s.view).1 →
      (isrS j T.s).2 = (isr j T.s.view).2 →
      (TShared.lower ⟨zeroAt (h - counter T.s.view T.z h) h (isrS j T.s).1.bus.tSet, h,
        k.getD T.last, (isrS j T.s).1⟩ =
        ⟨zeroAt (h - counter T.s.view T.z h) h (isr j T.s.view).1.tSet, h,
        k.getD T.last, ⟨(isr j T.s.view).1, false⟩⟩ ∧
      (isrS j T.s).2 = (isr j T.s.view).2) := by
    intro h6 h7
    refine ⟨?_, h7⟩
    unfold TShared.lower Shared.sys
    rw [hset, h6, hpa, hpz]
  cases hk with
  | idle h0 h1 h2 h3 h4 h5 h6 h7 h8 => exact Or.inl (plain h6 h7)
  | keep h0 h1 h2 h3 h4 h5 h6 h7 h8 => exact Or.inl (plain h6 h7)
  | done ok h0 h1 h2 h3 h4 h5 h6 h7 h8 => exact Or.inl (plain h6 h7)
  | again h0 h1 h2 h3 h4 h5 h6 h7 h8 h9 =>
    right
    rcases h9 with ⟨q1, q2, q3⟩ | ⟨q1, q2, q3⟩
    · left
      refine ⟨?_, trivial, trivial, q2, prepareTelegram i.own T.s.buf (telegramSize T.s.buf), ?_⟩
      · rw [hset, q3]
      · unfold Shared.sys
        rw [q3, hpa, hpz, hown]
        rfl
    · right
      have hc : j.cap = false :=
        (wait50_report _ _ I.good.link.inv.inv q1 false h8).1
      have he : isr j (waiting T i.own).sys.bus = _ :=
        startPending_wait50 _ T.s.view _ q1 hc
      rw [he]
      have e1 := congrArg Prod.fst q3
      have e2 := congrArg Prod.snd q3
      simp only [hown] at e1 e2
      refine ⟨?_, ?_⟩
      · unfold TShared.lower Shared.sys
        rw [hset, e1, hpa, hpz]
      · rw [q2, ← e2]

theorem turnS_irq {lat : Nat} {T : TShared} {k : Option Nat} {h : Nat} {i : Irq} (I : TurnS lat T)
    (hp : Possible lat T.lower (.irq k h i)) : TurnS lat (tnextS T (.irq k h i)).1 := by
  refine ⟨?_, stepS_good I.good _⟩
  rcases irq_lower I hp with ⟨h1, _⟩ | ⟨h1, h2, h3, _, t, h4⟩ | ⟨h1, _⟩
  · rw [h1]; exact turn_step I.turn hp
  · have := turn_step I.turn hp
    unfold TShared.lower
    rw [h1, h2, h3, h4]
    exact turn_of (s := (tnext T.lower (.irq k h i)).1.sys) this rfl rfl rfl rfl rfl rfl rfl
  · rw [h1]; exact turn_step (waiting_turn I.turn _) (waiting_possible _ hp)

theorem fresh_good {s : Shared} (h : SGood s) : SGood s.fresh :=
  ⟨⟨⟨h.link.inv.inv.congr rfl, h.link.inv.paused⟩, h.link.err,
      fun hp => ⟨(h.link.armed hp).timer, (h.link.armed hp).edge⟩, h.link.mask⟩,
    ⟨h.own.own, h.own.pcs, h.own.high, h.own.low, h.own.sum, h.own.ready, h.own.rep, h.own.repc⟩⟩

theorem turnS_call {lat : Nat} {T : TShared} {t : Nat} {e : SEv} (I : TurnS lat T)
    (hp : PossibleS lat T (.call t e)) : TurnS lat (tnextS T (.call t e)).1 := by
  refine ⟨?_, stepS_good (fresh_good I.good) _⟩
  obtain ⟨ht, he⟩ := hp
  have quiet : ∀ x : Shared, stepS T.s.fresh e = (x, []) → x.bus = T.s.fresh.bus →
      x.paused = T.s.paused → Turn lat (tnextS T (.call t e)).1.lower := by
    intro x hx hb hpx
    simp only [tnextS, hx]
    have hz : zeroAt T.z t x.bus.tSet = T.z := by rw [hb]; rfl
    unfold TShared.lower
    simp only [hz]
    exact turn_of (s := T.s.sys) (turn_later I.turn t ht) hpx
      (by show x.bus.st = _; rw [hb]; rfl) (by show x.bus.mTime = _; rw [hb]; rfl)
      (by show x.bus.capInt = _; rw [hb]; rfl) (by show x.bus.tReset = _; rw [hb]; rfl)
      (by show x.bus.tInt = _; rw [hb]; rfl) (by show x.bus.mPwm = _; rw [hb]; rfl)
  have call : ∀ (v : Ev) (x : Shared), stepS T.s.fresh e = (x, ((T.s.fresh).call v).2) →
      x.sys = ((T.s.fresh).call v).1.sys → (∀ i, v ≠ .irq i) →
      Turn lat (tnextS T (.call t e)).1.lower := by
    intro v x hx hs hi
    have := turn_step (e := .call t v) I.turn ⟨ht, hi⟩
    have h1 : (tnext T.lower (.call t v)).1 =
        ⟨zeroAt T.z t (step T.s.fresh.sys v).1.bus.tSet, t, T.last, (step T.s.fresh.sys v).1⟩ := rfl
    rw [h1, ← call_sys, ← hs] at this
    simp only [tnextS, hx]
    exact this
  have same : stepS T.s.fresh e = (T.s.fresh, []) → Turn lat (tnextS T (.call t e)).1.lower :=
    fun h => quiet T.s.fresh h rfl rfl
  cases e
  case irq i => cases he
  case test =>
    by_cases hx : T.s.fresh.pc = .away ∧ T.s.fresh.bst = .free
    · exact quiet { T.s.fresh with pc := .found } (by simp [stepS, hx]) rfl rfl
    · exact same (by simp only [stepS, hx, if_false])
  case take =>
    by_cases hx : T.s.fresh.pc = .found
    · exact quiet { T.s.fresh with pc := .filling, bst := .acquired } (by simp [stepS, hx]) rfl rfl
    · exact same (by simp only [stepS, hx, if_false])
  case poke j v =>
    by_cases hx : T.s.fresh.pc = .filling
    · exact quiet { T.s.fresh with buf := upd T.s.fresh.buf j v } (by simp [stepS, hx]) rfl rfl
    · exact same (by simp only [stepS, hx, if_false])
  case drop =>
    by_cases hx : T.s.fresh.pc = .filling
    · exact quiet { T.s.fresh with pc := .away, bst := .free } (by simp [stepS, hx]) rfl rfl
    · exact same (by simp only [stepS, hx, if_false])
  case send =>
    by_cases hx : T.s.fresh.pc = .filling
    · exact quiet { T.s.fresh with pc := .high (telegramSize T.s.fresh.buf), bst := .sending }
        (by simp [stepS, hx]) rfl rfl
    · exact same (by simp only [stepS, hx, if_false])
  case high own =>
    cases hx : T.s.fresh.pc
    case high len =>
      exact quiet { T.s.fresh with pc := .low own len, buf := upd T.s.fresh.buf 1 (highByte own) }
        (by simp [stepS, hx]) rfl rfl
    all_goals exact same (by simp [stepS, hx])
  case low =>
    cases hx : T.s.fresh.pc
    case low own len =>
      exact quiet { T.s.fresh with pc := .sum len, buf := upd T.s.fresh.buf 2 (lowByte own) }
        (by simp [stepS, hx]) rfl rfl
    all_goals exact same (by simp [stepS, hx])
  case sum =>
    cases hx : T.s.fresh.pc
    case sum len =>
      exact quiet { T.s.fresh with
          pc := .spin, buf := upd T.s.fresh.buf len (xorBytes T.s.fresh.buf len 0xff#8) }
        (by simp [stepS, hx]) rfl rfl
    all_goals exact same (by simp [stepS, hx])
  case look =>
    by_cases hx : T.s.fresh.pc = .spin ∧ T.s.fresh.cur = false
    · exact quiet { T.s.fresh with pc := .point } (by simp [stepS, hx]) rfl rfl
    · exact same (by simp only [stepS, hx, if_false])
  case point =>
    by_cases hx : T.s.fresh.pc = .point
    · exact quiet { T.s.fresh with pc := .kick, cur := true } (by simp [stepS, hx]) rfl rfl
    · exact same (by simp only [stepS, hx, if_false])
  case kick =>
    by_cases hx : T.s.fresh.pc = .kick
    · exact call .kick { (T.s.fresh.call .kick).1 with pc := .away }
        (by simp only [stepS, hx, if_true]) rfl (by simp)
    · exact same (by simp only [stepS, hx, if_false])
  case discard => exact call .discard _ rfl rfl (by simp)
  case pause w => exact call (.pause w) _ rfl rfl (by simp)
  case resume => exact call .resume _ rfl rfl (by simp)
  case maxRetries n => exact call (.maxRetries n) _ rfl rfl (by simp)
  case maxBusyRetries n => exact call (.maxBusyRetries n) _ rfl rfl (by simp)

theorem turnS_step {lat : Nat} {T : TShared} {e : TSEv} (I : TurnS lat T) (hp : PossibleS lat T e) :
    TurnS lat (tnextS T e).1 := by
  cases e with
  | irq k h i => exact turnS_irq I hp
  | call t e => exact turnS_call I hp

theorem turnS_run {lat : Nat} (es : List TSEv) : ∀ {T : TShared}, TurnS lat T → ValidS lat T es →
    TurnS lat (trunS T es) := by
  induction es with
  | nil => exact fun I _ => I
  | cons e es ih => exact fun I h => ih (turnS_step I h.1) h.2

theorem turnS_boot (lat t : Nat) : TurnS lat (tbootS t) := ⟨turn_boot lat t, boot_good⟩

/-! ## The property -/

/-- A transmission begins only in the handler. -/
theorem begins_irqS {T : TShared} {t : Nat} {e : SEv} (he : e.isIrq = false) :
    (tnextS T (.call t e)).2 = [] := main_out T.s.fresh e he

/-- When a transmission begins, the link layer with copies begins it too, in the same state, or in the
state in which the telegram handed over again has been waiting. -/
theorem begin_lower {lat : Nat} {T : TShared} {k : Option Nat} {h : Nat} {i : Irq} (I : TurnS lat T)
    (hp : Possible lat T.lower (.irq k h i)) {o : Out} (ho : o = .txBegin ∨ o = .ackBegin)
    (hb : o ∈ (tnextS T (.irq k h i)).2) :
    ∃ L : TSys, Turn lat L ∧ Possible lat L (.irq k h i) ∧ L.last = T.last ∧
      o ∈ (tnext L (.irq k h i)).2 ∧ (tnextS T (.irq k h i)).1.lower = (tnext L (.irq k h i)).1 := by
  rcases irq_lower I hp with ⟨h1, h2⟩ | ⟨h1, h2, h3, h4, _⟩ | ⟨h1, h2⟩
  · exact ⟨T.lower, I.turn, hp, rfl, by rw [← h2]; exact hb, h1⟩
  · rw [h4] at hb
    rcases ho with rfl | rfl <;> simp at hb
  · rw [h2] at hb
    refine ⟨waiting T i.own, waiting_turn I.turn _, waiting_possible _ hp, rfl, ?_, h1⟩
    rcases ho with rfl | rfl <;> simpa using hb

/-- **C93, telegrams, with the shared send buffer**: as `C93_telegram`, also for telegrams handed over
again from inside the completion report. -/
theorem C93_telegram_shared (lat t0 : Nat) (es : List TSEv) (e : TSEv)
    (hv : ValidS lat (tbootS t0) es) (he : PossibleS lat (trunS (tbootS t0) es) e)
    (hb : .txBegin ∈ (tnextS (trunS (tbootS t0) es) e).2) :
    let T := trunS (tbootS t0) es
    let T' := (tnextS T e).1
    T'.last = T.last ∧ T.last + delayBits 50 ≤ T'.z + T'.s.bus.mPwm + lat + 1 ∧
    (T'.s.buf 0 &&& 0x20#8 ≠ 0#8 → T'.s.buf 0 &&& 0x04#8 ≠ 0#8 →
      T.last + delayBits 50 + delayBits 3 ≤ T'.z + T'.s.bus.mPwm + lat + 1) := by
  have I := turnS_run es (turnS_boot lat t0) hv
  revert hb he I
  generalize trunS (tbootS t0) es = T
  intro he hb I
  cases e with
  | call t e => rw [begins_irqS he.2] at hb; cases hb
  | irq k h i =>
    obtain ⟨L, IL, pL, lL, bL, eL⟩ := begin_lower I he (Or.inl rfl) hb
    obtain ⟨r1, r2, r3⟩ := turn_telegram IL pL bL
    rw [← eL, lL] at r1 r2 r3
    refine ⟨r1, r2, fun h1 h2 => ?_⟩
    have hcur : (tnextS T (.irq k h i)).1.s.cur = true := by
      have hpz : T.s.paused = false := he.1
      have hstep : stepS T.s (.irq (irqAt T.lower k h i)) = isrS (irqAt T.lower k h i) T.s := by
        simp [stepS, hpz]
      simp only [tnextS, hstep] at hb ⊢
      cases (isrS_step (irqAt T.lower k h i) T.s I.good.link.inv.inv I.good.link.err hpz).1 with
      | idle q0 q1 q2 q3 q4 q5 q6 q7 q8 =>
        have hq := (quiet_isr (irqAt T.lower k h i) T.s.view I.good.link.inv.inv I.good.link.err (by
          show (if T.s.cur then some T.s.buf else none) = none
          rw [q0]; rfl)).1 .txBegin (by rw [← q7]; exact hb)
        cases hq
      | keep q0 q1 q2 => exact q2
      | done ok q0 q1 q2 q3 q4 q5 q6 q7 q8 => rw [q7, q8] at hb; simp at hb
      | again q0 q1 q2 => exact q2
    refine r3 _ ?_ h1 h2
    exact cur_some hcur

/-! A connection control telegram that nobody acknowledges, with the retry limits set to 0. -/

/-- The device starts and gets idle; the main program fills the buffer and hands it over. -/
def againStart : List TSEv :=
  [.call 0 (.maxRetries 0), .call 0 (.maxBusyRetries 0), .irq none 4376 accessIrq,
    .irq none 5313 accessIrq] ++
  [SEv.test, .take, .poke 0 0xB0#8, .poke 3 0x11#8, .poke 4 0xFF#8, .poke 5 0x60#8, .poke 6 0xC2#8,
    .send, .high 0x1101#16, .low, .sum, .look, .point, .kick].map (.call 6000)

/-- The next match of the timer. -/
def matchEv (T : TShared) : TSEv := .irq none (T.z + T.s.bus.mTime + 1) accessIrq

/-- `n` matches and nothing else. -/
def silent : Nat → TShared → List TSEv
  | 0, _ => []
  | n + 1, T => matchEv T :: silent n (tnextS T (matchEv T)).1

/-- `PossibleS`, computed, for the events used here. -/
def possibleSB (lat : Nat) (T : TShared) : TSEv → Bool
  | .irq k h i => possibleB lat T.lower (.irq k h i)
  | .call t e => decide (T.now ≤ t) && !e.isIrq

/-- `ValidS`, computed. -/
def validSB (lat : Nat) : TShared → List TSEv → Bool
  | _, [] => true
  | T, e :: es => possibleSB lat T e && validSB lat (tnextS T e).1 es

theorem possibleSB_sound {lat : Nat} {T : TShared} {e : TSEv} (h : possibleSB lat T e = true) :
    PossibleS lat T e := by
  match e, h with
  | .irq k x i, h =>
    exact (possibleB_sound (e := .irq k x i) h : Possible lat T.lower (.irq k x i))
  | .call t e, h =>
    simp only [possibleSB, Bool.and_eq_true, decide_eq_true_eq, Bool.not_eq_true'] at h
    exact h

theorem validSB_sound {lat : Nat} (es : List TSEv) : ∀ T : TShared, validSB lat T es = true →
    ValidS lat T es := by
  induction es with
  | nil => exact fun _ _ => trivial
  | cons e es ih =>
    intro T h
    simp only [validSB, Bool.and_eq_true] at h
    exact ⟨possibleSB_sound h.1, ih _ h.2⟩

/-- All up to the completion report. -/
def againRun : List TSEv := againStart ++ silent 64 (trunS (tbootS 0) againStart)

/-- The hypotheses of `C93_telegram_shared` are met by a run in which the handler reports the failure and
starts the same telegram again. -/
example :
    let T := trunS (tbootS 0) againRun
    ValidS 1 (tbootS 0) againRun ∧ PossibleS 1 T (matchEv T) ∧
    (tnextS T (matchEv T)).2 = [.finished false, .txBegin] := by
  refine ⟨validSB_sound _ _ (by decide +kernel), possibleSB_sound (by decide +kernel), by decide +kernel⟩

/-- **C93, acknowledges, with the shared send buffer.** -/
theorem C93_acknowledge_shared (lat t0 : Nat) (es : List TSEv) (e : TSEv)
    (hv : ValidS lat (tbootS t0) es) (he : PossibleS lat (trunS (tbootS t0) es) e)
    (hb : .ackBegin ∈ (tnextS (trunS (tbootS t0) es) e).2) :
    let T := trunS (tbootS t0) es
    let T' := (tnextS T e).1
    T'.last = T.last ∧ T.last + delayBits 15 ≤ T'.z + T'.s.bus.mPwm + lat + 1 := by
  have I := turnS_run es (turnS_boot lat t0) hv
  revert hb he I
  generalize trunS (tbootS t0) es = T
  intro he hb I
  cases e with
  | call t e => rw [begins_irqS he.2] at hb; cases hb
  | irq k h i =>
    obtain ⟨L, IL, pL, lL, bL, eL⟩ := begin_lower I he (Or.inr rfl) hb
    obtain ⟨r1, r2⟩ := turn_acknowledge IL pL bL
    rw [← eL, lL] at r1 r2
    exact ⟨r1, r2⟩

/-- The hypotheses of `C93_acknowledge_shared` are met: the run of `C93_acknowledge`. -/
example :
    let es : List TSEv := listenRun.map fun
      | .irq k h i => .irq k h i
      | .call t _ => .call t .discard
    let T := trunS (tbootS 0) es
    let e := TSEv.irq none (16816 + 2601) listenIrq
    ValidS 1 (tbootS 0) es ∧ PossibleS 1 T e ∧ .ackBegin ∈ (tnextS T e).2 := by
  refine ⟨validSB_sound _ _ (by decide +kernel), possibleSB_sound (by decide +kernel), by decide +kernel⟩

end Verif.Bus
