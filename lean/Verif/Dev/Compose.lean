import Verif.Dev.Model
import Verif.TL4.EndToEnd
import Verif.Dev.Props22

/-!
# C03: the transport layer with the device's own services

The hypothesis `AppOk` of the theorems about the transport layer holds for the management services
of the device, so the end-to-end theorem holds for the composed system.
-/

namespace Verif.Dev

open Verif.Knx

variable {W : World}

theorem copy_below (dst : Nat → Byte) (a : Nat) (src : Nat → Byte) (o n i : Nat) (h : i < a) :
    blit dst a src o n i = dst i ∧ revBlit dst a src o n i = dst i := by
  unfold blit revBlit
  rw [if_neg (by omega), if_neg (by omega)]
  exact ⟨rfl, rfl⟩

theorem addLen_six (b : Buf) (n : Nat) : addLen b n 6 = b 6 := upd_ne _ _ _ _ (by decide)

theorem propRead_six (d : Dev) (obj pid count start : Nat) (sb : Buf) :
    (propRead W d obj pid count start sb).2.1 6 = sb 6 := by
  unfold propRead
  split
  · rfl
  · dsimp only
    repeat' split
    all_goals first
      | rfl
      | (dsimp only
         rw [addLen_six, (copy_below _ _ _ _ _ _ (by decide)).2, upd_ne _ _ _ _ (by decide),
            upd_ne _ _ _ _ (by decide)])
      | (dsimp only
         rw [addLen_six, (copy_below _ _ _ _ _ _ (by decide)).2])
      | (dsimp only
         rw [addLen_six, (copy_below _ _ _ _ _ _ (by decide)).1])

theorem propWrite_six (d : Dev) (t : Buf) (l obj pid count start : Nat) (sb : Buf) :
    (propWrite W d t l obj pid count start sb).2.1 6 = sb 6 := by
  unfold propWrite
  split
  · rfl
  · dsimp only
    repeat' split
    all_goals first
      | rfl
      | (dsimp only
         rw [addLen_six, upd_ne _ _ _ _ (by decide)])
      | (dsimp only
         rw [addLen_six, (copy_below _ _ _ _ _ _ (by decide)).2])
      | (dsimp only
         rw [addLen_six, (copy_below _ _ _ _ _ _ (by decide)).1])

theorem propDesc_six (d : Dev) (obj pid index : Nat) (sb : Buf) :
    (propDesc d obj pid index sb).2.1 6 = sb 6 := by
  unfold propDesc
  dsimp only
  split
  · rfl
  · split <;> rfl

theorem data_six {b : Byte} (h : b = 1#8 ∨ b = 2#8 ∨ b = 3#8) : b &&& 0xFC#8 = 0#8 := by
  rcases h with h | h | h <;> rw [h] <;> decide

theorem memResponse_six (d : Dev) (a : Word) (n : Nat) (sb : Buf) :
    (memResponse W d a n sb).2.1 6 = 0x02#8 := rfl

theorem memService_six (d : Dev) (cmd : Word) (t sb : Buf)
    (h : (memService W d cmd t sb).2.2 = true) : (memService W d cmd t sb).2.1 6 = 0x02#8 := by
  revert h
  unfold memService
  dsimp only
  repeat' split
  · intro _; rfl
  · intro h; cases h
  · intro _; rfl

theorem defaultApci_six (d : Dev) (cmd : Word) (t sb : Buf)
    (h : (defaultApci W d cmd t sb).2.2 = true) :
    (defaultApci W d cmd t sb).2.1 6 &&& 0xFC#8 = 0#8 := by
  revert h
  unfold defaultApci
  repeat' split
  · intro _; exact data_six (Or.inl rfl)
  · intro h; exact data_six (Or.inr (Or.inl (memService_six d cmd t sb h)))
  · intro h; cases h
  · intro _; exact data_six (Or.inr (Or.inr rfl))
  · intro _; exact data_six (Or.inr (Or.inr rfl))
  · intro _; exact data_six (Or.inr (Or.inr rfl))
  · intro h; cases h
  · intro h; cases h

theorem processApci_six (d : Dev) (t : Buf) (l : Nat) (sb : Buf)
    (h : (processApci W d t l sb).2.2 = true) :
    (processApci W d t l sb).2.1 6 &&& 0xFC#8 = 0#8 := by
  revert h
  unfold processApci
  split
  · exact defaultApci_six d _ t sb
  · unfold bcu2Apci
    split
    · intro _
      apply data_six
      right; right
      dsimp only
      have h6 : upd (propHeader sb 0x65#8 0x3d6#16 t) 11 (t 11) 6 = 0x03#8 := rfl
      have hu : ∀ b : Buf, upd b 10 0#8 6 = b 6 := fun b => upd_ne _ _ _ _ (by decide)
      repeat' split
      all_goals first
        | rw [propRead_six, h6]
        | rw [propWrite_six, h6]
        | rw [hu, propRead_six, h6]
        | rw [hu, propWrite_six, h6]
    · split
      · intro _
        dsimp only
        rw [propDesc_six]
        exact data_six (Or.inr (Or.inr rfl))
      · exact defaultApci_six d _ t sb

theorem plain_data {b : Byte} (h : b &&& 0xFC#8 = 0#8) : b &&& 0x80#8 = 0#8 := by
  revert b; decide +kernel

theorem broadcast_six (d : Dev) (t : Buf) (f : Buf → Buf) (b : Buf) (h : (broadcast W d t).2 = some f) :
    f b 6 &&& 0xFC#8 = 0#8 := by
  revert h
  unfold broadcast defaultBroadcast
  dsimp only
  repeat' split
  all_goals first
    | (intro h'; cases h'; done)
    | (intro h'; cases h'; exact data_six (Or.inl rfl))
    | (intro h'; cases h'; exact data_six (Or.inr (Or.inr rfl)))

/-- The management services of the device never produce control telegrams. -/
theorem app_ok (group : Dev → Buf → Nat → Dev × Option (Buf → Buf))
    (hg : ∀ d t l f b, (group d t l).2 = some f → f b 6 &&& 0x80#8 = 0#8) :
    TL4.AppOk (app W group) where
  apci := fun d t l b h => plain_data (processApci_six d t l b h)
  broadcast := fun d t _ f b h => plain_data (broadcast_six d t f b h)
  group := hg

/-- The same services on a device whose state may change in any way between two of their calls:
before the call number `n` the change `ext n` is applied.  (The program, the programming button, a
repeated begin.) -/
def disturbed {σ : Type} (A : TL4.App σ) (ext : Nat → σ → σ) : TL4.App (σ × Nat) where
  processApci := fun a t l b =>
    let r := A.processApci (ext a.2 a.1) t l b
    ((r.1, a.2 + 1), r.2)
  broadcast := fun a t l =>
    let r := A.broadcast (ext a.2 a.1) t l
    ((r.1, a.2 + 1), r.2)
  group := fun a t l =>
    let r := A.group (ext a.2 a.1) t l
    ((r.1, a.2 + 1), r.2)

theorem disturbed_ok {σ : Type} {A : TL4.App σ} (h : TL4.AppOk A) (ext : Nat → σ → σ) :
    TL4.AppOk (disturbed A ext) where
  apci := fun a t l b hr => h.apci (ext a.2 a.1) t l b hr
  broadcast := fun a t l f b hr => h.broadcast (ext a.2 a.1) t l f b hr
  group := fun a t l f b hr => h.group (ext a.2 a.1) t l f b hr

open TL4 TL4.Spec in
/-- C03 for the device with its management services (all device types): over a bus that loses and
duplicates telegrams the requests processed are exactly the first `r` requests of the client, in order
and each once; they include every acknowledged one and at most one more.  The device's memory may be
changed by anything else between two requests. -/
theorem C03_device (group : Dev → Buf → Nat → Dev × Option (Buf → Buf))
    (hg : ∀ d t l f b, (group d t l).2 = some f → f b 6 &&& 0x80#8 = 0#8)
    (ext : Nat → Dev → Dev) (p d : Word) (req : Nat → Buf) (hreq : TL4.Requests p d req)
    (s : TL4.State (Dev × Nat)) (hs : TL4.Reachable (disturbed (app W group) ext) s)
    (hcl : s.phase = .closed) (hfree : s.tx = .free) (c : Buf) (len : Nat)
    (hu : UnicastTo s.ownAddr c) (hc : isConnect c = true) (hsrc : src c = p)
    (y : TL4.Sys (Dev × Nat))
    (hy : TL4.SysReach (disturbed (app W group) ext) p req
      { dev := (TL4.step (disturbed (app W group) ext) s (.rx c len)).1, current := 0, toDevice := [],
        toClient := [], log := [] } y) :
    ∃ r, y.log = (List.range r).map req ∧ y.current ≤ r ∧ r ≤ y.current + 1 :=
  TL4.C03_exactly_once _ (disturbed_ok (app_ok group hg) ext) p d req hreq s hs hcl hfree c len hu hc
    hsrc y hy

/-! The hypotheses are met: a device whose memory is disturbed before every request. -/

def exSilent : Dev → Buf → Nat → Dev × Option (Buf → Buf) := fun d _ _ => (d, none)

def exDisturbed : TL4.App (Dev × Nat) :=
  disturbed (app exWorld exSilent) (fun n d => { d with status := BitVec.ofNat 8 n })

def exComposed : TL4.Sys (Dev × Nat) :=
  { dev := (TL4.step exDisturbed (TL4.init 0x1105#16 0 (exDev, 0))
      (.rx (TL4.demoTel 0x11FE#16 0x1105#16 0x80#8) 7)).1
    current := 0, toDevice := [], toClient := [], log := [] }

example (y : TL4.Sys (Dev × Nat)) (hy : TL4.SysReach exDisturbed 0x11FE#16 TL4.demoReq exComposed y) :
    ∃ r, y.log = (List.range r).map TL4.demoReq ∧ y.current ≤ r ∧ r ≤ y.current + 1 :=
  C03_device exSilent (fun _ _ _ _ _ h => by cases h) _ 0x11FE#16 0x1105#16 TL4.demoReq TL4.demoReq_ok
    (TL4.init 0x1105#16 0 (exDev, 0)) ⟨_, _, _, [], rfl⟩ rfl rfl _ 7 ⟨by decide, by decide, by decide⟩ (by decide) (by decide)
    y hy

/-- One request is sent, received and acknowledged. -/
example : ∃ y, TL4.SysReach exDisturbed 0x11FE#16 TL4.demoReq exComposed y ∧ y.current = 1 ∧
    y.log.map (fun t => (List.range 8).map t) = [(List.range 8).map (TL4.demoReq 0)] := by
  let y1 : TL4.Sys (Dev × Nat) := { exComposed with toDevice := exComposed.toDevice ++ [TL4.demoReq 0] }
  let y2 := { y1 with toDevice := [] }.device exDisturbed 0x11FE#16 (.rx (TL4.demoReq 0) 8)
  have r1 : TL4.SysReach exDisturbed 0x11FE#16 TL4.demoReq exComposed y1 := .step _ _ .start (.clientSend _)
  have r2 : TL4.SysReach exDisturbed 0x11FE#16 TL4.demoReq exComposed y2 := .step _ _ r1 (.receive y1 _ _ 8 rfl)
  have ht : y2.toClient = [0] := by decide +kernel
  have r3 := TL4.SysReach.step _ _ r2 (.clientAck y2 0 [] ht)
  exact ⟨_, r3, by decide +kernel, by decide +kernel⟩

end Verif.Dev
