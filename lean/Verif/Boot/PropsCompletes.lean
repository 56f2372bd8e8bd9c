import Verif.Boot.PropsConfirmed
import Verif.TL4.PropsProgress

/-!
# C110: an update can be completed

The dialogue of C109 with the bootloader, an update, and a bus that has lost and duplicated telegrams: the update
can be continued, and the continuation ends with the image in the flash.
-/

namespace Verif.Boot
open Verif.Iap Spec Tool Knx
open Verif.TL4 (Reachable Requests Sys Dialogue DReach Acks)

/-- **C110.** A full update over a bus that loses and duplicates telegrams, at any moment of it: as long as the
connection is open, the last sign of life in it is less than three seconds old and an answer the client still waits
for has not been repeated three times, the update can be continued so that every command is answered with success;
then the flash holds the image and the bootloader starts it. No command that was executed before is executed
again. -/
theorem C110_update_completes (E : Env) (L : Layout E) (I : Info) (hw : Hw) (ram : Nat → Byte)
    (ms : List (List Byte)) (hm : ∀ m ∈ ms, Telegram m) (u : State) (rs : List Resp)
    (h : run E I (init E hw ram) ms = some (u, rs)) (blockSize : Nat)
    (hB : 0 < blockSize) (hB' : blockSize ≤ 1265) (hB'' : blockSize % 256 = 0)
    (uid image : List Byte) (huid : UnlocksWith (bytesAt E.uid 0 12) (msgUnlock uid))
    (hodd : E.imageEnd % 256 ≠ 1) (hf : ∀ k, E.fault k = none)
    (start version : Nat) (hlen : 2 ≤ image.length) (hal : start % 256 = 0) (hlo : appFirst E ≤ start)
    (hfit : start + image.length ≤ E.top) (eraseAll : Bool)
    (p : Word) (req ack : Nat → Buf) (s : TL4.State BootDev)
    (ht : Transmits p s.ownAddr req (fullCommands blockSize uid image start version eraseAll)) (hack : Acks p ack)
    (hackTo : ∀ k, TL4.Spec.UnicastTo s.ownAddr (ack k))
    (hn : ∀ i, (message (req i) (telegramSize (req i) + 1)).head? ≠ some 0xec#8)
    (c : Buf) (len : Nat) (hc : Connects E I p s c u) (z : Dialogue BootDev)
    (hz : DReach (updateApp E I) p (updateClient E I u req ack) (dialogue E I s c len) z)
    (hstill : z.executed.length ≤ (fullCommands blockSize uid image start version eraseAll).length)
    (hopen : z.sys.dev.phase ≠ .closed) (hown : z.sys.dev.ownAddr = s.ownAddr)
    (hage : (TL4.millis z.sys.dev - z.sys.dev.connectedTime).toNat < 3000)
    (hrep : z.sys.dev.phase = .openWait → z.got.length < z.executed.length → z.sys.dev.repCount < 3) :
    ∃ z', DReach (updateApp E I) p (updateClient E I u req ack) z z' ∧
      z'.executed.map (fun e => message e.2.1 (telegramSize e.2.1 + 1)) =
        fullCommands blockSize uid image start version eraseAll ∧
      z'.got.length = (fullCommands blockSize uid image start version eraseAll).length ∧
      (∀ f ∈ z'.got, f.drop 7 = [0xFE#8, 0xdc#8, 0x7f#8]) ∧
      ∃ v, z'.sys.dev.app.st = some v ∧ Holds v.hw.flash start image ∧
        startup E v.hw.flash false false = some (BitVec.ofNat 32 start) := by
  obtain ⟨w, hall, hhold, hstart⟩ := full_ok E L I hw ram ms hm u rs h blockSize hB hB' hB'' uid image huid hodd hf
    start version hlen hal hlo hfit eraseAll
  have hcm : messages req (fullCommands blockSize uid image start version eraseAll).length
      = fullCommands blockSize uid image start version eraseAll := range_commands ht.commands
  generalize fullCommands blockSize uid image start version eraseAll = cmds at *
  have hans : ∀ x : List (BootDev × Buf × Nat), TL4.answered (updateClient E I u req ack).expects x = x :=
    fun x => List.filter_eq_self.mpr (fun _ _ => rfl)
  obtain ⟨y, h1, -, -, z', h2, h3, h4, h5, h6, -⟩ := TL4.C110_no_dead_end (updateApp E I) (update_plain E I) p
    (updateClient E I u req ack) s ht.requests hack hackTo (update_expected E I u req ack ⟨ht.messages, hn⟩)
    (fun i => ⟨_, rfl⟩) hc.reachable hc.closed hc.free (by show s.app.st = _; rw [hc.updater]; rfl) c len
    hc.addressed hc.connect hc.src z hz hopen hown hage (by rw [hans]; exact hrep) (cmds.length - z.executed.length)
  have hr := h1.trans h2.reach
  rw [show z.executed.length + (cmds.length - z.executed.length) = cmds.length by omega] at h5
  rw [hans] at h6
  have hel : z'.executed.length = cmds.length := by
    have := congrArg List.length h5
    simpa using this
  obtain ⟨r, v, rs', k1, -, -, -, -, k2, k3, k4⟩ := C108_answers E I p s.ownAddr req ack ht.requests hack
    ⟨ht.messages, hn⟩ s c u hc len z' (hz.trans hr)
  have hrc : r = cmds.length := by omega
  rw [hrc, hcm] at k2
  unfold AllOk at hall
  rw [hall] at k2
  obtain ⟨e1, e2⟩ := Prod.mk.inj (Option.some.inj k2)
  subst e1 e2
  refine ⟨z', hr, ?_, by omega, ?_, w, k3, hhold, hstart⟩
  · have : z'.executed.map (fun e => message e.2.1 (telegramSize e.2.1 + 1)) =
        (z'.executed.map (fun e => e.2.1)).map (fun t => message t (telegramSize t + 1)) := by
      rw [List.map_map]; rfl
    rw [this, h5, List.map_map]
    exact hcm
  · intro f hfm
    obtain ⟨j, hj, hjf⟩ := List.mem_iff_getElem.mp hfm
    obtain ⟨a, ha1, ha2⟩ := k4 j f (by rw [List.getElem?_eq_getElem hj, hjf])
    rw [List.getElem?_map] at ha1
    cases hx : cmds[j]? with
    | none => rw [hx] at ha1; cases ha1
    | some x =>
      rw [hx] at ha1
      have : ok = a := Option.some.inj ha1
      rw [ha2, ← this]
      rfl

/-! The hypotheses are met: the update of the example, in which the first command has been lost once and is on its
way twice. -/

set_option maxRecDepth 100000 in
example : ∃ z', DReach demoBus 0x1101#16 demoClient demoLossy z' ∧
    z'.got.length = demoFull.length ∧ (∀ f ∈ z'.got, f.drop 7 = [0xFE#8, 0xdc#8, 0x7f#8]) ∧
    ∃ v, z'.sys.dev.app.st = some v ∧ Holds v.hw.flash 0x1000 demoImage := by
  obtain ⟨z', h1, -, h2, h3, v, h4, h5, -⟩ := C110_update_completes demoEnv demoLayout demoInfo _ _ [] (by simp) demoStart [] rfl 256
    (by decide) (by decide) (by decide) demoUid demoImage (by decide +kernel) (by decide +kernel) (fun _ => rfl) 0x1000 0x1000
    (by decide) (by decide) (by decide +kernel) (by decide +kernel) false 0x1101#16
    (demoReqs demoFull) demoAck demoDev (demo_transmits _ (by decide +kernel)) demo_acks
    (fun k => ⟨by simp [TL4.Spec.isGroup, demoAck], by simp [TL4.Spec.dst, demoAck]; decide +kernel, by decide +kernel⟩)
    demo_noDecompress demoConnect 8 demo_connects demoLossy demoLossy_reach (by decide +kernel) (by decide +kernel)
    (by decide +kernel) (by decide +kernel) (by decide +kernel)
  exact ⟨z', h1, h2, h3, v, h4, h5⟩

end Verif.Boot
