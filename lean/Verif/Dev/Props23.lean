import Verif.Dev.Spec23
import Verif.TL4.Trans
import Verif.Dev.Props22

/-!
# C23: the individual address is only set in programming mode

The theorems about writes are named `_partial`: while the address table object is in state `loading`
the code also writes the address into the table, whose place is not checked (see the findings).
-/

namespace Verif.Dev

open Verif.Knx

variable {W : World}

/-! ## Helper lemmas -/

theorem setOwnDefault_spec (d : Dev) (a : Word) : AddressSet d (setOwnAddressDefault d a) a := by
  unfold setOwnAddressDefault
  dsimp only
  by_cases h : a ≠ makeWord (d.ee 0x17) (d.ee 0x18)
  · rw [if_pos h]
    refine ⟨rfl, ?_, fun i h1 h2 => ?_, ⟨fun _ => Or.inr (fun hc => h hc.symm), fun _ => rfl⟩,
      rfl, rfl, rfl, rfl, rfl, rfl, rfl, rfl⟩
    · show makeWord (upd (upd d.ee 0x17 (highByte a)) 0x18 (lowByte a) 0x17)
        (upd (upd d.ee 0x17 (highByte a)) 0x18 (lowByte a) 0x18) = a
      rw [upd_same, upd_ne _ _ _ _ (by decide), upd_same, makeWord_high_low]
    · show upd (upd d.ee 0x17 (highByte a)) 0x18 (lowByte a) i = d.ee i
      rw [upd_ne _ _ _ _ h2, upd_ne _ _ _ _ h1]
  · rw [if_neg h]
    have h' : a = makeWord (d.ee 0x17) (d.ee 0x18) := Classical.byContradiction h
    exact ⟨rfl, h'.symm, fun i _ _ => rfl, ⟨fun hm => Or.inl hm, fun hm => hm.elim id
      (fun hc => absurd h'.symm hc)⟩, rfl, rfl, rfl, rfl, rfl, rfl, rfl, rfl⟩

theorem setOwn_notLoading (d : Dev) (a : Word) (h : ¬ TableLoading W d) :
    setOwnAddress W d a = setOwnAddressDefault d a := by
  unfold setOwnAddress
  dsimp only
  rw [if_neg]
  intro hc
  exact h ⟨hc.1, by rw [← (setOwnDefault_spec d a).ee 0x371 (by decide) (by decide)]; exact hc.2⟩

theorem setOwn_own (d : Dev) (a : Word) : (setOwnAddress W d a).ownAddr = a := by
  have h : (setOwnAddressDefault d a).ownAddr = a := (setOwnDefault_spec d a).own
  unfold setOwnAddress
  dsimp only
  repeat' split
  all_goals exact h

theorem broadcast_default (d : Dev) (t : Buf) (h1 : apciCommand t ≠ 0x3DE#16)
    (h2 : apciCommand t ≠ 0x3DC#16) :
    broadcast W d t = defaultBroadcast W d (apciCommand t) t := by
  unfold broadcast
  dsimp only
  rw [if_neg h1, if_neg h2, ite_self]

/-! ## The property -/

/-- C23: outside programming mode an individual address write or read has no effect and no answer. -/
theorem C23_ignored (d : Dev) (t : Buf) (hp : programmingMode d = false)
    (ht : (∃ a, IaWrite t a) ∨ IaRead t) : broadcast W d t = (d, none) := by
  have h : apciCommand t ≠ 0x3DE#16 ∧ apciCommand t ≠ 0x3DC#16 := by
    rcases ht with ⟨a, ha⟩ | hr
    · rw [ha.apci]; exact ⟨by decide, by decide⟩
    · unfold IaRead at hr
      rw [hr]; exact ⟨by decide, by decide⟩
  rw [broadcast_default d t h.1 h.2]
  unfold defaultBroadcast
  rw [hp]
  rfl

/-- C23: the same seen from the bus, whatever the state of the transport layer: nothing is sent and
nothing changes. -/
theorem C23_ignored_on_bus (group : Dev → Buf → Nat → Dev × Option (Buf → Buf)) (s : TL4.State Dev)
    (hs : s.ownAddr = s.app.ownAddr) (t : Buf) (len : Nat) (hd : destinationAddress t = 0#16)
    (hp : programmingMode s.app = false) (ht : (∃ a, IaWrite t a) ∨ IaRead t) :
    sysStep W group s (.tl (.rx t len)) = (s, [.broadcastCall t len]) := by
  have e : TL4.step (app W group) s (.rx t len) = (s, [.broadcastCall t len]) := by
    show (TL4.processTelegram (app W group) s t len).getD (s, []) = _
    unfold TL4.processTelegram
    dsimp only
    rw [if_pos hd]
    show (TL4.callback s (broadcast W s.app t) _).getD (s, []) = _
    rw [C23_ignored s.app t hp ht]
    rfl
  unfold sysStep
  dsimp only
  rw [e, ← hs]

/-- C23 (partial): in programming mode an individual address write sets exactly the transmitted
address, and is not answered. -/
theorem C23_write_partial (d : Dev) (t : Buf) (a : Word) (hp : programmingMode d = true)
    (ht : IaWrite t a) (hl : ¬ TableLoading W d) :
    AddressSet d (broadcast W d t).1 a ∧ (broadcast W d t).2 = none := by
  rw [broadcast_default d t (by rw [ht.apci]; decide) (by rw [ht.apci]; decide)]
  unfold defaultBroadcast
  rw [hp, if_neg (by decide), if_pos ht.apci, ht.addr, setOwn_notLoading d a hl]
  exact ⟨setOwnDefault_spec d a, rfl⟩

/-- C23 (partial): on the bus: the device uses the new address from now on. -/
theorem C23_write_on_bus_partial (group : Dev → Buf → Nat → Dev × Option (Buf → Buf))
    (s : TL4.State Dev) (t : Buf) (len : Nat) (a : Word) (hd : destinationAddress t = 0#16)
    (hp : programmingMode s.app = true) (ht : IaWrite t a) (hl : ¬ TableLoading W s.app) :
    ∃ d', AddressSet s.app d' a ∧
      sysStep W group s (.tl (.rx t len)) =
        ({ s with app := d', ownAddr := a }, [.broadcastCall t len]) := by
  obtain ⟨h1, h2⟩ := C23_write_partial (W := W) s.app t a hp ht hl
  refine ⟨(broadcast W s.app t).1, h1, ?_⟩
  have e : TL4.step (app W group) s (.rx t len) =
      ({ s with app := (broadcast W s.app t).1 }, [.broadcastCall t len]) := by
    show (TL4.processTelegram (app W group) s t len).getD (s, []) = _
    unfold TL4.processTelegram
    dsimp only
    rw [if_pos hd]
    show (TL4.callback s (broadcast W s.app t) _).getD (s, []) = _
    unfold TL4.callback
    dsimp only
    rw [h2]
    rfl
  unfold sysStep
  dsimp only
  rw [e, ← h1.own]

/-- C23: in programming mode an individual address read changes nothing and is answered with exactly
one broadcast telegram, the individual address response (the sender address, bytes 1 and 2, is
entered by the link layer). -/
theorem C23_read_on_bus (group : Dev → Buf → Nat → Dev × Option (Buf → Buf))
    (s : TL4.State Dev) (t : Buf) (len : Nat) (hd : destinationAddress t = 0#16)
    (hp : programmingMode s.app = true) (ht : IaRead t) (htx : s.tx = .free) :
    (sysStep W group s (.tl (.rx t len))).2 = [.broadcastCall t len,
      .userSent [0xb0#8, s.txBuf 1, s.txBuf 2, 0x00#8, 0x00#8, 0xe1#8, 0x01#8, 0x40#8]] ∧
    (sysStep W group s (.tl (.rx t len))).1.app = s.app := by
  have hb : broadcast W s.app t = (s.app, some iaReadResponse) := by
    unfold IaRead at ht
    rw [broadcast_default s.app t (by rw [ht]; decide) (by rw [ht]; decide)]
    unfold defaultBroadcast
    rw [hp, ht, if_neg (by decide), if_neg (by decide), if_pos rfl]
  have hf : bytes (iaReadResponse s.txBuf) (telegramSize (iaReadResponse s.txBuf)) =
      [0xb0#8, s.txBuf 1, s.txBuf 2, 0x00#8, 0x00#8, 0xe1#8, 0x01#8, 0x40#8] := by
    have h8 : telegramSize (iaReadResponse s.txBuf) = 8 := by
      have h5 : iaReadResponse s.txBuf 5 = 0xe1#8 := rfl
      unfold telegramSize
      rw [h5]
      decide
    rw [h8]
    show [iaReadResponse s.txBuf 0, iaReadResponse s.txBuf 1, iaReadResponse s.txBuf 2,
      iaReadResponse s.txBuf 3, iaReadResponse s.txBuf 4, iaReadResponse s.txBuf 5,
      iaReadResponse s.txBuf 6, iaReadResponse s.txBuf 7] = _
    have h0 : iaReadResponse s.txBuf 0 = 0xb0#8 := by
      simp [iaReadResponse, setApciCommand, setDestinationAddress, initLpdu, setFrameType, setPriority,
        setRepeated, upd]
    rw [h0]
    rfl
  have e : TL4.step (app W group) s (.rx t len) =
      ({ s with tx := .sending, txBuf := iaReadResponse s.txBuf }, [.broadcastCall t len,
        .userSent (bytes (iaReadResponse s.txBuf) (telegramSize (iaReadResponse s.txBuf)))]) := by
    show (TL4.processTelegram (app W group) s t len).getD (s, []) = _
    unfold TL4.processTelegram
    dsimp only
    rw [if_pos hd]
    show (TL4.callback s (broadcast W s.app t) _).getD (s, []) = _
    rw [hb]
    unfold TL4.callback TL4.userSend TL4.acquire
    dsimp only
    rw [if_pos htx]
    rfl
  unfold sysStep
  dsimp only
  rw [e, hf]
  exact ⟨rfl, rfl⟩

/-- C23: the individual address of a device changes only when the device receives, as a broadcast, an
individual address write in programming mode, or one that carries the device's own serial number (not
on a BCU1); then it is the transmitted address.  Whatever the other telegrams, connections, services
and their order are: they do not touch it.  (`Op.setOwnAddress` is a call by the application program.)
-/
theorem C23_only_way (group : Dev → Buf → Nat → Dev × Option (Buf → Buf))
    (hg : ∀ d t l, (group d t l).1.ownAddr = d.ownAddr) (s : TL4.State Dev)
    (hs : s.ownAddr = s.app.ownAddr) (e : Event) (he : ∀ a, e ≠ .tl (.setOwnAddress a))
    (hne : (sysStep W group s e).1.ownAddr ≠ s.ownAddr) :
    ∃ t len, e = .tl (.rx t len) ∧ destinationAddress t = 0#16 ∧
      ((programmingMode s.app = true ∧ IaWrite t (sysStep W group s e).1.ownAddr) ∨
       (W.kind ≠ .bcu1 ∧ IaSerialWrite t (serialNumber s.app) (sysStep W group s e).1.ownAddr)) := by
  cases e with
  | button => exact absurd rfl hne
  | setProgMode on => exact absurd rfl hne
  | tl op =>
    have hstep : sysStep W group s (.tl op) =
        ({ (TL4.step (app W group) s op).1 with
            ownAddr := (TL4.step (app W group) s op).1.app.ownAddr }, (TL4.step (app W group) s op).2) := by
      unfold sysStep
      cases op with
      | setOwnAddress a => exact absurd rfl (he a)
      | _ => rfl
    rw [hstep, hs] at hne
    dsimp only at hne
    rw [hstep]
    dsimp only
    -- the new application state
    cases hx : TL4.exec (app W group) s op with
    | none =>
      have : TL4.step (app W group) s op = (s, []) := by unfold TL4.step; rw [hx]; rfl
      rw [this] at hne
      exact absurd rfl hne
    | some r =>
      have hst : TL4.step (app W group) s op = r := by unfold TL4.step; rw [hx]; rfl
      rw [hst] at hne ⊢
      obtain ⟨s', o⟩ := r
      have ht := TL4.exec_trans (app W group) s s' op o hx
      have key : ∀ t len, destinationAddress t = 0#16 → op = .rx t len →
          s'.app = (broadcast W s.app t).1 →
          ∃ t len, Event.tl op = .tl (.rx t len) ∧ destinationAddress t = 0#16 ∧
          ((programmingMode s.app = true ∧ IaWrite t s'.app.ownAddr) ∨
           (W.kind ≠ .bcu1 ∧ IaSerialWrite t (serialNumber s.app) s'.app.ownAddr)) := by
        intro t len hd ho ha
        refine ⟨t, len, by rw [ho], hd, ?_⟩
        rw [ha] at hne ⊢
        unfold broadcast at hne ⊢
        dsimp only at hne ⊢
        have hdef : ∀ hne : (defaultBroadcast W s.app (apciCommand t) t).1.ownAddr ≠ s.app.ownAddr,
            programmingMode s.app = true ∧ IaWrite t (defaultBroadcast W s.app (apciCommand t) t).1.ownAddr := by
          intro hne
          unfold defaultBroadcast at hne ⊢
          cases hp : programmingMode s.app with
          | false => rw [hp] at hne; exact absurd rfl hne
          | true =>
            rw [hp, if_neg (by decide)] at hne
            rw [if_neg (by decide)]
            by_cases h1 : apciCommand t = 0x0c0#16
            · rw [if_pos h1] at hne ⊢
              refine ⟨rfl, h1, ?_⟩
              rw [setOwn_own]
            · rw [if_neg h1] at hne
              by_cases h2 : apciCommand t = 0x100#16
              · rw [if_pos h2] at hne; exact absurd rfl hne
              · rw [if_neg h2] at hne; exact absurd rfl hne
        by_cases hk : W.kind = .bcu1
        · rw [if_pos hk] at hne ⊢
          exact Or.inl (hdef hne)
        · rw [if_neg hk] at hne ⊢
          by_cases h1 : apciCommand t = 0x3DE#16
          · rw [if_pos h1] at hne ⊢
            by_cases h2 : slice t 8 6 ≠ slice s.app.ee 0x38A 6
            · rw [if_pos h2] at hne; exact absurd rfl hne
            · rw [if_neg h2] at hne ⊢
              refine Or.inr ⟨hk, h1, Classical.byContradiction h2, ?_⟩
              rw [setOwn_own]
          · rw [if_neg h1] at hne ⊢
            by_cases h2 : apciCommand t = 0x3DC#16
            · rw [if_pos h2] at hne
              by_cases h3 : slice t 8 6 ≠ slice s.app.ee 0x38A 6
              · rw [if_pos h3] at hne; exact absurd rfl hne
              · rw [if_neg h3] at hne; exact absurd rfl hne
            · rw [if_neg h2] at hne ⊢
              exact Or.inl (hdef hne)
      have hproc : ∀ t l b, ((app W group).processApci s.app t l b).1.ownAddr = s.app.ownAddr :=
        fun t l b => (processApci_core (W := W) s.app t l b).1.ownAddr
      cases ht with
      | rxBroadcast t len h => exact key t len h rfl rfl
      | rxBroadcastSend t len f h => exact key t len h rfl rfl
      | rxGroup t len => exact absurd (hg _ _ _) hne
      | rxGroupSend t len => exact absurd (hg _ _ _) hne
      | individual t len => exact absurd (hproc _ _ _) hne
      | individualSend t len r hu hc htx hr hs =>
        subst hr
        exact absurd (hproc _ _ _) hne
      | dataAccepted t len =>
        exfalso
        apply hne
        unfold TL4.a02Process
        dsimp only
        repeat' split
        all_goals exact hproc _ _ _
      | ackOk t len =>
        exfalso
        apply hne
        dsimp only
        unfold TL4.a08
        dsimp only
        split <;> rfl
      | _ => exact absurd rfl hne

theorem sysStep_synced (group : Dev → Buf → Nat → Dev × Option (Buf → Buf)) (s : TL4.State Dev)
    (hs : s.ownAddr = s.app.ownAddr) (e : Event) :
    (sysStep W group s e).1.ownAddr = (sysStep W group s e).1.app.ownAddr := by
  cases e with
  | button => exact hs
  | setProgMode on =>
    show s.ownAddr = (if on ≠ programmingMode s.app then toggleProg s.app else s.app).ownAddr
    rw [hs]
    split <;> rfl
  | tl op =>
    unfold sysStep
    dsimp only
    cases op with
    | setOwnAddress a =>
      show (TL4.step (app W group) s (.setOwnAddress a)).1.ownAddr = (setOwnAddress W _ a).ownAddr
      rw [setOwn_own]
      rfl
    | _ => rfl

/-- C23: over any history during which no address write reaches the device in programming mode, none
carries its serial number and its own program does not set the address, the address stays the same. -/
theorem C23_history (group : Dev → Buf → Nat → Dev × Option (Buf → Buf))
    (hg : ∀ d t l, (group d t l).1.ownAddr = d.ownAddr) (es : List Event) : ∀ (s : TL4.State Dev),
    s.ownAddr = s.app.ownAddr →
    (∀ pre e post, es = pre ++ e :: post →
      (∀ a, e ≠ .tl (.setOwnAddress a)) ∧
      ∀ t len a, e = .tl (.rx t len) → destinationAddress t = 0#16 →
        ¬ (programmingMode (sysRun W group s pre).1.app = true ∧ IaWrite t a) ∧
        ¬ IaSerialWrite t (serialNumber (sysRun W group s pre).1.app) a) →
    (sysRun W group s es).1.ownAddr = s.ownAddr := by
  induction es with
  | nil => intro s _ _; rfl
  | cons e es ih =>
    intro s hs hall
    have h1 := hall [] e es rfl
    have hkeep : (sysStep W group s e).1.ownAddr = s.ownAddr := by
      apply Classical.byContradiction
      intro hne
      obtain ⟨t, len, ht, hd, hw⟩ := C23_only_way group hg s hs e h1.1 hne
      have h2 := h1.2 t len (sysStep W group s e).1.ownAddr ht hd
      rcases hw with hw | hw
      · exact h2.1 hw
      · exact h2.2 hw.2
    show (sysRun W group (sysStep W group s e).1 es).1.ownAddr = s.ownAddr
    rw [ih _ (sysStep_synced group s hs e) (fun pre e' post hp => hall (e :: pre) e' post (by rw [hp]; rfl)),
      hkeep]

/-- C23 (partial): on the newer devices a write that carries the device's serial number sets exactly
the transmitted address, in programming mode or not; with another serial number it has no effect. -/
theorem C23_serial_write_partial (d : Dev) (t : Buf) (sn : List Byte) (a : Word) (hk : W.kind ≠ .bcu1)
    (ht : IaSerialWrite t sn a) (hl : ¬ TableLoading W d) :
    (sn = serialNumber d → AddressSet d (broadcast W d t).1 a ∧ (broadcast W d t).2 = none) ∧
    (sn ≠ serialNumber d → broadcast W d t = (d, none)) := by
  have e : broadcast W d t = if slice t 8 6 ≠ slice d.ee 0x38A 6 then (d, none)
      else (setOwnAddress W d (makeWord (t 14) (t 15)), none) := by
    unfold broadcast
    dsimp only
    rw [if_neg hk, if_pos ht.apci]
  have hs : slice t 8 6 = sn := ht.serial
  constructor
  · intro hsn
    rw [e, if_neg (fun h => h (hs.trans hsn)), ht.addr, setOwn_notLoading d a hl]
    exact ⟨setOwnDefault_spec d a, rfl⟩
  · intro hsn
    exact e.trans (if_pos (fun h => hsn (hs.symm.trans h)))

/-- C23: a read that carries the device's serial number is answered with this serial number (bytes
8 to 13) in a broadcast of 11 bytes; with another serial number it is not answered.  The state never
changes. -/
theorem C23_serial_read (d : Dev) (t : Buf) (hk : W.kind ≠ .bcu1) (ht : apciCommand t = 0x3DC#16) :
    (broadcast W d t).1 = d ∧
    ((List.range 6).map (fun i => t (8 + i)) ≠ serialNumber d → (broadcast W d t).2 = none) ∧
    ((List.range 6).map (fun i => t (8 + i)) = serialNumber d → ∃ f, (broadcast W d t).2 = some f ∧
      ∀ b, (destinationAddress (f b) = 0#16 ∧ f b 5 = 0xeb#8 ∧ f b 6 = 0x03#8 ∧ f b 7 = 0xdd#8 ∧
        (List.range 6).map (fun i => f b (8 + i)) = serialNumber d)) := by
  have e : broadcast W d t = if slice t 8 6 ≠ slice d.ee 0x38A 6 then (d, none)
      else (d, some (serialReadResponse d)) := by
    unfold broadcast
    dsimp only
    rw [if_neg hk, ht, if_neg (by decide), if_pos rfl]
  refine ⟨?_, fun h => ?_, fun h => ?_⟩
  · rw [e]; split <;> rfl
  · rw [e.trans (if_pos (fun hc => h hc))]
  · rw [e.trans (if_neg (fun hc => hc h))]
    refine ⟨_, rfl, fun b => ⟨?_, rfl, rfl, rfl, rfl⟩⟩
    have h3 : serialReadResponse d b 3 = 0#8 := rfl
    have h4 : serialReadResponse d b 4 = 0#8 := rfl
    unfold destinationAddress
    rw [h3, h4]
    decide

/-- C23 (partial): while the address table object is being loaded, the address is also written into
the table (array `ar`, offset `o`), behind its length byte. -/
theorem C23_write_loading_partial (d : Dev) (t : Buf) (a : Word) (hp : programmingMode d = true)
    (ht : IaWrite t a) (hl : TableLoading W d) (o : Nat)
    (htab : userMemoryPtr W.kind (wordAt d.ee (addrTabAddrOff W.kind)).toNat = some (.ee, o))
    (hroom : o + 3 ≤ W.kind.eeSize) :
    let d' := (broadcast W d t).1
    d'.ownAddr = a ∧ d'.ram = d.ram ∧ d'.status = d.status ∧ d'.undef = d.undef ∧
    ∀ i, d'.ee i = if i = o + 2 ∨ (i = 0x18 ∧ i ≠ o + 1) then lowByte a
      else if i = o + 1 ∨ i = 0x17 then highByte a else d.ee i := by
  have hb : (broadcast W d t).1 = setOwnAddress W d a := by
    rw [broadcast_default d t (by rw [ht.apci]; decide) (by rw [ht.apci]; decide)]
    unfold defaultBroadcast
    rw [hp, if_neg (by decide), if_pos ht.apci, ht.addr]
  have hs := setOwnDefault_spec d a
  have hoff : ∀ k : Kind, addrTabAddrOff k ≠ 0x17 ∧ addrTabAddrOff k ≠ 0x18 ∧
      addrTabAddrOff k + 1 ≠ 0x17 ∧ addrTabAddrOff k + 1 ≠ 0x18 := by
    intro k; cases k <;> decide
  obtain ⟨o1, o2, o3, o4⟩ := hoff W.kind
  have hw : wordAt (setOwnAddressDefault d a).ee (addrTabAddrOff W.kind) =
      wordAt d.ee (addrTabAddrOff W.kind) := by
    unfold wordAt
    rw [hs.ee _ o1 o2, hs.ee _ o3 o4]
  have e : setOwnAddress W d a = { setOwnAddressDefault d a with
      ee := upd (upd (setOwnAddressDefault d a).ee (o + 1) (highByte a)) (o + 2) (lowByte a),
      eeModified := true } := by
    unfold setOwnAddress
    dsimp only
    rw [if_pos ⟨hl.1, by rw [hs.ee _ (by decide) (by decide)]; exact hl.2⟩, hw, htab]
    dsimp only
    rw [if_pos (by
      unfold inArray areaSize
      rw [decide_eq_true_iff]
      right
      dsimp only
      omega), if_pos rfl]
  dsimp only
  rw [hb, e]
  refine ⟨hs.own, hs.ram, hs.status, hs.undef, fun i => ?_⟩
  show upd (upd (setOwnAddressDefault d a).ee (o + 1) (highByte a)) (o + 2) (lowByte a) i = _
  by_cases h2 : i = o + 2
  · rw [if_pos (Or.inl h2), h2, upd_same]
  · rw [upd_ne _ _ _ _ h2]
    by_cases h1 : i = o + 1
    · rw [h1, upd_same, if_neg (by omega), if_pos (Or.inl rfl)]
    · rw [upd_ne _ _ _ _ h1]
      have hst := hs.stored
      have hhi : (setOwnAddressDefault d a).ee 0x17 = highByte a := by
        have := congrArg highByte hst
        unfold storedAddress at this
        rwa [highByte_makeWord] at this
      have hlo : (setOwnAddressDefault d a).ee 0x18 = lowByte a := by
        have := congrArg lowByte hst
        unfold storedAddress at this
        rwa [lowByte_makeWord] at this
      by_cases h3 : i = 0x18
      · rw [if_pos (Or.inr ⟨h3, h1⟩), h3, hlo]
      · rw [if_neg (fun hc => hc.elim h2 (fun hc => h3 hc.1))]
        by_cases h4 : i = 0x17
        · rw [if_pos (Or.inr h4), h4, hhi]
        · rw [if_neg (fun hc => hc.elim h1 h4), hs.ee i h4 h3]

/-- The address write while the address table object is being loaded. -/
theorem loading_write (d : Dev) (t : Buf) (a : Word) (hp : programmingMode d = true)
    (ht : IaWrite t a) (hl : TableLoading W d) (ar : Area) (o : Nat)
    (htab : userMemoryPtr W.kind (wordAt d.ee (addrTabAddrOff W.kind)).toNat = some (ar, o)) :
    (broadcast W d t).1 =
      if inArray (areaSize W.kind ar) (o + 1 : Nat) 2 then
        if ar = .ee then
          { setOwnAddressDefault d a with
            ee := upd (upd (setOwnAddressDefault d a).ee (o + 1) (highByte a)) (o + 2) (lowByte a)
            eeModified := true }
        else
          { setOwnAddressDefault d a with
            ram := upd (upd (setOwnAddressDefault d a).ram (o + 1) (highByte a)) (o + 2) (lowByte a)
            eeModified := true }
      else { setOwnAddressDefault d a with undef := true, eeModified := true } := by
  have hs := setOwnDefault_spec d a
  have hoff : ∀ k : Kind, addrTabAddrOff k ≠ 0x17 ∧ addrTabAddrOff k ≠ 0x18 ∧
      addrTabAddrOff k + 1 ≠ 0x17 ∧ addrTabAddrOff k + 1 ≠ 0x18 := by
    intro k; cases k <;> decide
  obtain ⟨o1, o2, o3, o4⟩ := hoff W.kind
  have hw : wordAt (setOwnAddressDefault d a).ee (addrTabAddrOff W.kind) =
      wordAt d.ee (addrTabAddrOff W.kind) := by
    unfold wordAt
    rw [hs.ee _ o1 o2, hs.ee _ o3 o4]
  rw [broadcast_default d t (by rw [ht.apci]; decide) (by rw [ht.apci]; decide)]
  unfold defaultBroadcast
  rw [hp, if_neg (by decide), if_pos ht.apci, ht.addr]
  unfold setOwnAddress
  dsimp only
  rw [if_pos ⟨hl.1, by rw [hs.ee _ (by decide) (by decide)]; exact hl.2⟩, hw, htab]

/-- C23 (partial): the same for a table in the RAM. The EEPROM changes as in any other state. -/
theorem C23_write_loading_ram_partial (d : Dev) (t : Buf) (a : Word) (hp : programmingMode d = true)
    (ht : IaWrite t a) (hl : TableLoading W d) (o : Nat)
    (htab : userMemoryPtr W.kind (wordAt d.ee (addrTabAddrOff W.kind)).toNat = some (.ram, o))
    (hroom : o + 3 ≤ areaSize W.kind .ram) :
    let d' := (broadcast W d t).1
    d'.ownAddr = a ∧ d'.status = d.status ∧ d'.undef = d.undef ∧ storedAddress d' = a ∧
    (∀ i, i ≠ 0x17 → i ≠ 0x18 → d'.ee i = d.ee i) ∧
    ∀ i, d'.ram i = if i = o + 2 then lowByte a else if i = o + 1 then highByte a else d.ram i := by
  have hs := setOwnDefault_spec d a
  dsimp only
  rw [loading_write d t a hp ht hl .ram o htab, if_pos (by
    unfold inArray
    rw [decide_eq_true_iff]
    right
    omega), if_neg (by decide)]
  refine ⟨hs.own, hs.status, hs.undef, hs.stored, fun i h1 h2 => hs.ee i h1 h2, fun i => ?_⟩
  show upd (upd (setOwnAddressDefault d a).ram (o + 1) (highByte a)) (o + 2) (lowByte a) i = _
  rw [hs.ram]
  by_cases h2 : i = o + 2
  · rw [if_pos h2, h2, upd_same]
  · rw [if_neg h2, upd_ne _ _ _ _ h2]
    by_cases h1 : i = o + 1
    · rw [if_pos h1, h1, upd_same]
    · rw [if_neg h1, upd_ne _ _ _ _ h1]

/-! ## Findings -/

/-- C23 (finding): while the address table object is being loaded and its address lies outside EEPROM
and RAM, an address write uses a null pointer. -/
theorem C23_loading_without_table (d : Dev) (t : Buf) (a : Word) (hp : programmingMode d = true)
    (ht : IaWrite t a) (hl : TableLoading W d)
    (htab : userMemoryPtr W.kind (wordAt d.ee (addrTabAddrOff W.kind)).toNat = none) :
    (broadcast W d t).1.undef = true := by
  have hs := setOwnDefault_spec d a
  have hoff : ∀ k : Kind, addrTabAddrOff k ≠ 0x17 ∧ addrTabAddrOff k ≠ 0x18 ∧
      addrTabAddrOff k + 1 ≠ 0x17 ∧ addrTabAddrOff k + 1 ≠ 0x18 := by
    intro k; cases k <;> decide
  obtain ⟨o1, o2, o3, o4⟩ := hoff W.kind
  have hw : wordAt (setOwnAddressDefault d a).ee (addrTabAddrOff W.kind) =
      wordAt d.ee (addrTabAddrOff W.kind) := by
    unfold wordAt
    rw [hs.ee _ o1 o2, hs.ee _ o3 o4]
  rw [broadcast_default d t (by rw [ht.apci]; decide) (by rw [ht.apci]; decide)]
  unfold defaultBroadcast
  rw [hp, if_neg (by decide), if_pos ht.apci, ht.addr]
  unfold setOwnAddress
  dsimp only
  rw [if_pos ⟨hl.1, by rw [hs.ee _ (by decide) (by decide)]; exact hl.2⟩, hw, htab]

/-- C23 (finding): while the address table object is being loaded and less than three bytes of the
memory are left at the table's address, an address write writes behind the memory. With the
theorems above this covers every place of the table. -/
theorem C23_loading_no_room (d : Dev) (t : Buf) (a : Word) (hp : programmingMode d = true)
    (ht : IaWrite t a) (hl : TableLoading W d) (ar : Area) (o : Nat)
    (htab : userMemoryPtr W.kind (wordAt d.ee (addrTabAddrOff W.kind)).toNat = some (ar, o))
    (hroom : areaSize W.kind ar < o + 3) :
    (broadcast W d t).1.undef = true := by
  rw [loading_write d t a hp ht hl ar o htab, if_neg (by
    unfold inArray
    rw [decide_eq_true_iff]
    omega)]

/-! ## The hypotheses are met -/

/-- Address write for 1.2.3. -/
def exIaWrite : Buf := exTel [0x00#8, 0xc0#8, 0x12#8, 0x03#8]

/-- The example device in programming mode. -/
def exProg : Dev := { exDev with status := 0xaf#8 }

/-- The example device without programming mode (status 0x2e). -/
example : programmingMode exDev = false ∧ programmingMode exProg = true := by decide
example : IaWrite exIaWrite 0x1203#16 := ⟨by decide, by decide⟩
example : IaRead (exTel [0x01#8, 0x00#8]) := by unfold IaRead; decide
example : ¬ TableLoading exWorld exProg := fun h => absurd h.2 (by decide)
example : destinationAddress exIaWrite = 0#16 := by decide
example : (broadcast exWorld exProg exIaWrite).1.ownAddr = 0x1203#16 := by decide
example : broadcast exWorld exDev exIaWrite = (exDev, none) :=
  C23_ignored exDev exIaWrite (by decide) (Or.inl ⟨0x1203#16, by decide, by decide⟩)

/-- A transport layer around the example device. -/
def exTl (d : Dev) : TL4.State Dev := TL4.init d.ownAddr 0 d

/-- Group telegrams do nothing here. -/
def exGroup : Dev → Buf → Nat → Dev × Option (Buf → Buf) := fun d _ _ => (d, none)

example : (sysStep exWorld exGroup (exTl exProg) (.tl (.rx exIaWrite 11))).1.ownAddr ≠
    (exTl exProg).ownAddr := by decide
example := C23_only_way (W := exWorld) exGroup (fun _ _ _ => rfl) (exTl exProg) rfl
  (.tl (.rx exIaWrite 11)) (fun _ h => nomatch h) (by decide)
example := C23_read_on_bus (W := exWorld) exGroup (exTl exProg) (exTel [0x01#8, 0x00#8]) 9 (by decide)
  (by decide) (by unfold IaRead; decide) rfl
/-- The address write with the serial number of the example device (bytes 0x38a.. of its EEPROM). -/
example : IaSerialWrite (exTel [0x03#8, 0xde#8, 0x8a#8, 0x8b#8, 0x8c#8, 0x8d#8, 0x8e#8, 0x8f#8, 0x12#8,
    0x03#8]) (serialNumber exDev) 0x1203#16 := ⟨by decide, by decide, by decide⟩

/-- The address table object is being loaded, the table lies at 0x116 as in all devices. -/
def exLoading : Dev := { exProg with ee := upd (setWord exDev.ee 0x378 0x116#16) 0x371 2#8 }
example : TableLoading exWorld exLoading ∧
    userMemoryPtr exWorld.kind (wordAt exLoading.ee (addrTabAddrOff exWorld.kind)).toNat =
      some (.ee, 0x16) := ⟨⟨by decide, by decide⟩, by decide⟩
/-- The same on a mask 0701, where 0x116 is not in the memory. -/
example : userMemoryPtr .mask0701 (wordAt exLoading.ee (addrTabAddrOff .mask0701)).toNat = none := by
  decide
/-- The table at the last byte of the EEPROM, and in the RAM. -/
example :
    (∃ o, userMemoryPtr exWorld.kind (exWorld.kind.eeStart + exWorld.kind.eeSize - 1) = some (.ee, o) ∧
      areaSize exWorld.kind .ee < o + 3) ∧
    (∃ o, userMemoryPtr exWorld.kind exWorld.kind.ramStart = some (.ram, o) ∧
      o + 3 ≤ areaSize exWorld.kind .ram) :=
  ⟨⟨_, rfl, by decide⟩, ⟨_, rfl, by decide⟩⟩
/-- A history with telegrams of all kinds, among them an address write outside programming mode. -/
example : (sysRun exWorld exGroup (exTl exDev)
    [.tl (.rx exIaWrite 11), .tl (.advance 10), .tl .loop, .button, .setProgMode false]).1.ownAddr =
      exDev.ownAddr := by decide

end Verif.Dev
