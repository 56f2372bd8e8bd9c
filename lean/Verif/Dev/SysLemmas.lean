import Verif.Dev.System
import Verif.TL4.Trans

/-!
# What a step of the transport layer does to the device
-/

namespace Verif.Dev

open Verif.Knx

/-- The device changes only while a telegram is processed: by a broadcast, a group telegram or a
telegram for the device's own address. -/
theorem step_app {σ : Type} (A : TL4.App σ) (s : TL4.State σ) (op : TL4.Op) :
    (TL4.step A s op).1.app = s.app ∨
    ∃ t len, op = .rx t len ∧
      ((destinationAddress t = 0#16 ∧ (TL4.step A s op).1.app = (A.broadcast s.app t len).1) ∨
       (destinationAddress t ≠ 0#16 ∧ t 5 &&& 0x80#8 ≠ 0#8 ∧
         (TL4.step A s op).1.app = (A.group s.app t len).1) ∨
       (destinationAddress t = s.ownAddr ∧ destinationAddress t ≠ 0#16 ∧ t 5 &&& 0x80#8 = 0#8 ∧
         ∃ sb, (TL4.step A s op).1.app = (A.processApci s.app t len sb).1)) := by
  cases hx : TL4.exec A s op with
  | none =>
    have : TL4.step A s op = (s, []) := by unfold TL4.step; rw [hx]; rfl
    rw [this]
    exact Or.inl rfl
  | some r =>
    have hst : TL4.step A s op = r := by unfold TL4.step; rw [hx]; rfl
    rw [hst]
    obtain ⟨s', o⟩ := r
    cases TL4.exec_trans A s s' op o hx with
    | rxBroadcast t len h => exact Or.inr ⟨t, len, rfl, Or.inl ⟨h, rfl⟩⟩
    | rxBroadcastSend t len f h => exact Or.inr ⟨t, len, rfl, Or.inl ⟨h, rfl⟩⟩
    | rxGroup t len h hg => exact Or.inr ⟨t, len, rfl, Or.inr (Or.inl ⟨h, hg, rfl⟩)⟩
    | rxGroupSend t len f h hg => exact Or.inr ⟨t, len, rfl, Or.inr (Or.inl ⟨h, hg, rfl⟩)⟩
    | individual t len hu =>
      exact Or.inr ⟨t, len, rfl, Or.inr (Or.inr ⟨hu.dest, hu.nonzero, hu.unicast, _, rfl⟩)⟩
    | individualSend t len r hu hc htx hr hs =>
      subst hr
      exact Or.inr ⟨t, len, rfl, Or.inr (Or.inr ⟨hu.dest, hu.nonzero, hu.unicast, _, rfl⟩)⟩
    | dataAccepted t len hu =>
      refine Or.inr ⟨t, len, rfl, Or.inr (Or.inr ⟨hu.dest, hu.nonzero, hu.unicast, ?_⟩)⟩
      unfold TL4.a02Process
      dsimp only
      repeat' split
      all_goals exact ⟨_, rfl⟩
    | ackOk t len =>
      left
      dsimp only
      unfold TL4.a08
      dsimp only
      repeat' split
      all_goals rfl
    | _ => exact Or.inl rfl

end Verif.Dev
