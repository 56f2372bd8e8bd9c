import Verif.Spi.Model

/-! Invariants of the SPI model. -/

namespace Verif.Spi

/-- The words the slave of port `p` shifts out during the frames number `a`, ..., `a + m - 1` of the frame
sequence `full`. -/
def ans (E : Env) (p : Port) (full : List Word) (a m : Nat) : List Word :=
  (List.range' a m).map (fun i => E.slave p (full.take i))

theorem ans_length (E : Env) (p : Port) (full : List Word) (a m : Nat) : (ans E p full a m).length = m := by
  unfold ans; simp

theorem ans_succ (E : Env) (p : Port) (full : List Word) (a m : Nat) :
    ans E p full a (m + 1) = ans E p full a m ++ [E.slave p (full.take (a + m))] := by
  unfold ans
  rw [List.range'_concat]
  simp

/-- State of the controller during the transmission of `full`, of which the frames before `L0` were sent
earlier: `rest` is still to be put into the FIFO, `got` has been read. -/
structure HInv (E : Env) (p : Port) (full : List Word) (L0 lost0 : Nat) (got rest : List Word) (c : Ssp) : Prop where
  words : c.wire ++ c.tx ++ rest = full
  start : L0 ≤ c.wire.length
  recv : List.Sublist (got ++ c.rx) (ans E p full L0 (c.wire.length - L0))
  count : got.length + c.rx.length + c.lost = lost0 + (c.wire.length - L0)
  short : full.length ≤ L0 + 8 → c.lost = lost0

theorem HInv.frame {E : Env} {p : Port} {full : List Word} {L0 lost0 : Nat} {got rest : List Word} {c : Ssp}
    (h : HInv E p full L0 lost0 got rest c) : HInv E p full L0 lost0 got rest (frame E p c) := by
  obtain ⟨tx, rx, wire, lost⟩ := c
  obtain ⟨hw, hs, hr, hc, hsh⟩ := h
  dsimp only at hw hs hr hc hsh
  unfold Spi.frame
  cases tx with
  | nil => exact ⟨hw, hs, hr, hc, hsh⟩
  | cons w t =>
    have htake : full.take wire.length = wire := by
      rw [← hw, List.append_assoc, List.take_left]
    have hlen : (wire ++ [w]).length - L0 = (wire.length - L0) + 1 := by simp; omega
    have hans : ans E p full L0 ((wire ++ [w]).length - L0)
        = ans E p full L0 (wire.length - L0) ++ [E.slave p wire] := by
      rw [hlen, ans_succ]
      have : L0 + (wire.length - L0) = wire.length := by omega
      rw [this, htake]
    dsimp only
    split
    · refine ⟨?_, ?_, ?_, ?_, hsh⟩
      · dsimp only; rw [← hw]; simp
      · simp; omega
      · dsimp only
        rw [hans, ← List.append_assoc]
        exact hr.append (List.Sublist.refl _)
      · dsimp only; rw [hlen]; simp; omega
    · rename_i hfull
      have hfl : full.length = wire.length + (t.length + 1) + rest.length := by rw [← hw]; simp; omega
      refine ⟨?_, ?_, ?_, ?_, fun h8 => by have := hsh h8; omega⟩
      · dsimp only; rw [← hw]; simp
      · simp; omega
      · dsimp only
        rw [hans]
        exact hr.trans (List.sublist_append_left _ _)
      · dsimp only; rw [hlen]; omega

theorem HInv.frames {E : Env} {p : Port} {full : List Word} {L0 lost0 : Nat} {got rest : List Word} {c : Ssp}
    (h : HInv E p full L0 lost0 got rest c) (n : Nat) : HInv E p full L0 lost0 got rest (frames E p n c) := by
  induction n generalizing c with
  | zero => exact h
  | succ n ih => exact ih h.frame

theorem HInv.advance {E : Env} {p : Port} {full : List Word} {L0 lost0 : Nat} {got rest : List Word} {hw : Hw}
    (h : HInv E p full L0 lost0 got rest (hw.ssp p)) :
    HInv E p full L0 lost0 got rest ((advance E hw).ssp p) := h.frames _

theorem frame_tx (E : Env) (p : Port) (c : Ssp) : (frame E p c).tx = c.tx.tail := by
  unfold frame
  cases h : c.tx with
  | nil => simp [h]
  | cons w t => dsimp only; split <;> rfl

theorem frame_rx_ne (E : Env) (p : Port) (c : Ssp) (h : c.rx ≠ []) : ∃ r, (frame E p c).rx = c.rx ++ r := by
  unfold frame
  split
  · exact ⟨[], by simp⟩
  · split
    · exact ⟨_, rfl⟩
    · exact ⟨[], by simp⟩

theorem frames_tx_le (E : Env) (p : Port) (n : Nat) (c : Ssp) : (frames E p n c).tx.length ≤ c.tx.length := by
  induction n generalizing c with
  | zero => exact Nat.le_refl _
  | succ n ih =>
    refine Nat.le_trans (ih _) ?_
    rw [frame_tx, List.length_tail]; omega

theorem frames_rx_cons (E : Env) (p : Port) (n : Nat) (c : Ssp) {v : Word} {r : List Word} (h : c.rx = v :: r) :
    ∃ r', (frames E p n c).rx = v :: r' := by
  induction n generalizing c r with
  | zero => exact ⟨r, h⟩
  | succ n ih =>
    obtain ⟨r', h'⟩ := frame_rx_ne E p c (by rw [h]; simp)
    rw [h, List.cons_append] at h'
    exact ih (frame E p c) h'

theorem frames_idle (E : Env) (p : Port) (n : Nat) (c : Ssp) (h : c.tx = []) : frames E p n c = c := by
  induction n with
  | zero => rfl
  | succ n ih =>
    have : frame E p c = c := by unfold frame; rw [h]
    show frames E p n (frame E p c) = c
    rw [this]; exact ih

/-- Reading a word of a nonempty receive FIFO. -/
theorem HInv.readDR {E : Env} {p : Port} {full : List Word} {L0 lost0 : Nat} {got rest : List Word} {hw : Hw}
    (h : HInv E p full L0 lost0 got rest (hw.ssp p)) (hne : (hw.ssp p).rx ≠ []) :
    HInv E p full L0 lost0 (got ++ [(readDR E p hw).1]) rest ((readDR E p hw).2.ssp p) := by
  have ha := h.advance (E := E)
  obtain ⟨v, r, hv⟩ := List.exists_cons_of_ne_nil hne
  obtain ⟨r', hr'⟩ := frames_rx_cons E p (E.ticks p hw.t) (hw.ssp p) hv
  have hr' : ((Spi.advance E hw).ssp p).rx = v :: r' := hr'
  unfold Spi.readDR setSsp
  dsimp only
  rw [if_pos rfl]
  generalize (Spi.advance E hw).ssp p = c at ha hr'
  obtain ⟨tx, rx, wire, lost⟩ := c
  dsimp only at hr'
  subst hr'
  obtain ⟨h1, h2, h3, h4, h5⟩ := ha
  refine ⟨h1, h2, ?_, ?_, h5⟩
  · simp only [List.headD_cons, List.tail_cons, List.append_assoc, List.cons_append, List.nil_append]
    exact h3
  · simp only [List.length_append, List.length_cons, List.length_nil, List.tail_cons] at h4 ⊢
    omega

theorem writeDR_other (E : Env) (p q : Port) (w : Word) (hw : Hw) (h : q ≠ p) :
    (writeDR E p w hw).ssp q = (advance E hw).ssp q := by
  unfold writeDR setSsp
  dsimp only
  split
  · exact if_neg h
  · rfl

/-- Writing a word when there is room. -/
theorem HInv.writeDR {E : Env} {p : Port} {full : List Word} {L0 lost0 : Nat} {got rest : List Word} {hw : Hw}
    {w : Word} (h : HInv E p full L0 lost0 got (w :: rest) (hw.ssp p))
    (hroom : (hw.ssp p).tx.length < E.room) :
    HInv E p full L0 lost0 got rest ((writeDR E p w hw).ssp p) := by
  have ha := h.advance (E := E)
  have hle : ((Spi.advance E hw).ssp p).tx.length ≤ (hw.ssp p).tx.length := frames_tx_le _ _ _ _
  unfold Spi.writeDR setSsp
  dsimp only
  rw [if_pos (by omega)]
  dsimp only
  rw [if_pos rfl]
  generalize (Spi.advance E hw).ssp p = c at ha
  obtain ⟨h1, h2, h3, h4, h5⟩ := ha
  refine ⟨?_, h2, h3, h4, h5⟩
  dsimp only
  rw [← h1]; simp

theorem readDR_tx_le (E : Env) (p : Port) (hw : Hw) :
    ((readDR E p hw).2.ssp p).tx.length ≤ (hw.ssp p).tx.length := by
  unfold readDR setSsp
  dsimp only
  rw [if_pos rfl]
  exact frames_tx_le _ _ _ _

/-! ## The loops of a block transfer on port 0 -/

/-- The invariant of a block transfer. -/
structure BInv (E : Env) (full : List Word) (L0 lost0 n : Nat) (s : State) : Prop where
  port : s.port = .p0
  hw : HInv E .p0 full L0 lost0 s.got s.snd (s.hw.ssp .p0)
  cnt : s.recCount = (n : Int) - s.got.length

theorem BInv.takeWord {E : Env} {full : List Word} {L0 lost0 n : Nat} {s : State}
    (h : BInv E full L0 lost0 n s) (hne : (s.hw.ssp .p0).rx ≠ []) :
    BInv E full L0 lost0 n (takeWord E s) := by
  obtain ⟨port, snd, got, recCount, finished, irq, hw⟩ := s
  obtain ⟨h1, h2, h3⟩ := h
  dsimp only at h1 h2 h3 hne
  subst h1
  refine ⟨rfl, h2.readDR hne, ?_⟩
  show recCount - 1 = (n : Int) - ((got ++ [(readDR E .p0 hw).1]).length : Nat)
  rw [h3]; simp; omega

theorem rne_iff (E : Env) (p : Port) (hw : Hw) : (readSR E p hw).1.rne = true ↔ ((advance E hw).ssp p).rx ≠ [] := by
  unfold readSR
  cases h : ((advance E hw).ssp p).rx <;> simp [h]

theorem BInv.readSR {E : Env} {full : List Word} {L0 lost0 n : Nat} {s : State} (q : Port)
    (h : BInv E full L0 lost0 n s) : BInv E full L0 lost0 n { s with hw := (readSR E q s.hw).2 } :=
  ⟨h.port, h.hw.advance, h.cnt⟩

theorem BInv.sendWord {E : Env} {full : List Word} {L0 lost0 n : Nat} {s : State} {w : Word} {rest : List Word}
    (h : BInv E full L0 lost0 n s) (hsnd : s.snd = w :: rest) (hroom : (s.hw.ssp .p0).tx.length < E.room) :
    BInv E full L0 lost0 n (sendWord E s w rest) := by
  obtain ⟨port, snd, got, recCount, finished, irq, hw⟩ := s
  obtain ⟨h1, h2, h3⟩ := h
  dsimp only at h1 h2 h3 hsnd hroom
  subst h1 hsnd
  have ha := h2.advance (E := E)
  have hle : ((Spi.advance E hw).ssp .p0).tx.length ≤ (hw.ssp .p0).tx.length := frames_tx_le _ _ _ _
  unfold Spi.sendWord
  dsimp only
  split
  · rename_i hr
    have hne := (rne_iff E .p0 hw).mp hr
    have hd := ha.readDR hne
    have hle2 := readDR_tx_le E .p0 (Spi.advance E hw)
    refine ⟨rfl, ?_, ?_⟩
    · exact (hd.writeDR (by omega)).advance
    · show recCount - 1 = (n : Int) - ((got ++ [(readDR E .p0 (Spi.advance E hw)).1]).length : Nat)
      rw [h3]; simp; omega
  · exact ⟨rfl, (ha.writeDR (by omega)).advance, h3⟩

theorem tnf_iff (E : Env) (p : Port) (hw : Hw) :
    (readSR E p hw).1.tnf = true ↔ ((readSR E p hw).2.ssp p).tx.length < E.room := by
  unfold readSR; simp

theorem BInv.sendLoop {E : Env} {full : List Word} {L0 lost0 n : Nat} (m : Nat) {s : State}
    (h : BInv E full L0 lost0 n s) : BInv E full L0 lost0 n (sendLoop E m s) := by
  induction m generalizing s with
  | zero =>
    unfold Spi.sendLoop
    split
    · exact h
    · dsimp only; split <;> exact h.readSR _
  | succ m ih =>
    unfold Spi.sendLoop
    split
    · exact h
    · rename_i w rest hsnd
      dsimp only
      split
      · rename_i ht
        have hp := h.port
        rw [hp] at ht
        apply ih
        apply (h.readSR s.port).sendWord hsnd
        rw [hp]
        exact (tnf_iff E .p0 s.hw).mp ht
      · exact h.readSR _

theorem BInv.recvLoop {E : Env} {full : List Word} {L0 lost0 n : Nat} (f : Nat) {s : State}
    (h : BInv E full L0 lost0 n s) : BInv E full L0 lost0 n (recvLoop E f s) := by
  induction f generalizing s with
  | zero => exact h
  | succ f ih =>
    unfold Spi.recvLoop
    split
    · dsimp only
      split
      · rename_i hr
        have hp := h.port
        rw [hp] at hr
        apply ih
        have h1 := (h.readSR s.port).takeWord (by rw [hp]; exact (rne_iff E .p0 s.hw).mp hr)
        exact ⟨h1.port, h1.hw.advance, h1.cnt⟩
      · exact h.readSR _
    · exact h

theorem BInv.continueBlock {E : Env} {full : List Word} {L0 lost0 n : Nat} {s : State}
    (h : BInv E full L0 lost0 n s) : BInv E full L0 lost0 n (continueBlock E s) := by
  unfold Spi.continueBlock
  dsimp only
  have h1 := (h.sendLoop 8).recvLoop ((((Spi.sendLoop E 8 s).hw.ssp (Spi.sendLoop E 8 s).port).tx.length +
    ((Spi.sendLoop E 8 s).hw.ssp (Spi.sendLoop E 8 s).port).rx.length + 1))
  split
  · exact ⟨h1.port, h1.hw, h1.cnt⟩
  · exact h1

theorem BInv.finalize {E : Env} {full : List Word} {L0 lost0 n : Nat} (k : Nat) {s : State}
    (h : BInv E full L0 lost0 n s) : BInv E full L0 lost0 n (finalize E k s) := by
  induction k generalizing s with
  | zero => exact h
  | succ k ih =>
    unfold Spi.finalize
    split
    · exact ih h.continueBlock
    · exact h

theorem BInv.irqs {E : Env} {full : List Word} {L0 lost0 n : Nat} (m : Nat) {s : State}
    (h : BInv E full L0 lost0 n s) : BInv E full L0 lost0 n (irqs E m s) := by
  induction m generalizing s with
  | zero => exact h
  | succ m ih =>
    unfold Spi.irqs irqHandler
    split
    · exact ih h.continueBlock
    · exact ih h

/-! ## Emptying the receive FIFO of an idle port -/

theorem readSR_idle (E : Env) (p : Port) (hw : Hw) (h : (hw.ssp p).tx = []) :
    (readSR E p hw).2.ssp p = hw.ssp p := frames_idle E p _ _ h

theorem drainLoop_idle (E : Env) (p : Port) (f : Nat) (hw : Hw) (h : (hw.ssp p).tx = [])
    (hf : (hw.ssp p).rx.length < f) :
    (drainLoop E p f hw).ssp p = { hw.ssp p with rx := [] } := by
  induction f generalizing hw with
  | zero => omega
  | succ f ih =>
    unfold drainLoop
    dsimp only
    have hs := readSR_idle E p hw h
    split
    · rename_i hr
      have hne : (hw.ssp p).rx ≠ [] := by
        have := (rne_iff E p hw).mp hr
        rwa [show (advance E hw).ssp p = hw.ssp p from hs] at this
      have h2 : (readDR E p (readSR E p hw).2).2.ssp p = { hw.ssp p with rx := (hw.ssp p).rx.tail } := by
        have hi : (advance E (readSR E p hw).2).ssp p = hw.ssp p := by
          refine (frames_idle E p _ _ ?_).trans hs
          rw [hs]; exact h
        unfold readDR setSsp
        dsimp only
        rw [if_pos rfl, hi]
      have hlt : (hw.ssp p).rx.tail.length < f := by
        rw [List.length_tail]
        have : (hw.ssp p).rx.length ≠ 0 := fun h => hne (List.length_eq_zero_iff.mp h)
        omega
      rw [ih _ (by rw [h2]; exact h) (by rw [h2]; exact hlt), h2]
    · rename_i hr
      have hz : (hw.ssp p).rx = [] := by
        have h1 : ¬ ((advance E hw).ssp p).rx ≠ [] := fun hne => hr ((rne_iff E p hw).mpr hne)
        rw [show (advance E hw).ssp p = hw.ssp p from hs] at h1
        exact Classical.byContradiction h1
      rw [hs]
      generalize hw.ssp p = c at hz ⊢
      obtain ⟨tx, rx, wire, lost⟩ := c
      subst hz
      rfl

theorem drain_idle (E : Env) (p : Port) (hw : Hw) (h : (hw.ssp p).tx = []) :
    (drain E p hw).ssp p = { hw.ssp p with rx := [] } :=
  drainLoop_idle E p _ hw h (by omega)

theorem startBlock_inv (E : Env) (W : List Word) (hw : Hw) (h : (hw.ssp .p0).tx = []) :
    BInv E ((hw.ssp .p0).wire ++ W) (hw.ssp .p0).wire.length (hw.ssp .p0).lost W.length
      (startBlock E .p0 W hw) := by
  unfold startBlock
  apply BInv.continueBlock
  have hd := drain_idle E .p0 hw h
  refine ⟨rfl, ?_, by simp⟩
  show HInv E .p0 _ _ _ [] W ((drain E .p0 hw).ssp .p0)
  rw [hd]
  exact ⟨by simp [h], Nat.le_refl _, by simp, by simp, fun _ => rfl⟩

/-! ## Progress -/

/-- Work left in a controller. -/
def phi (c : Ssp) : Nat := 2 * c.tx.length + c.rx.length

theorem frame_phi (E : Env) (p : Port) (c : Ssp) (h : c.tx ≠ []) :
    phi (frame E p c) < phi c ∧ c.lost ≤ (frame E p c).lost := by
  unfold frame phi
  cases hc : c.tx with
  | nil => exact absurd hc h
  | cons w t => dsimp only; split <;> simp <;> omega

theorem frames_phi (E : Env) (p : Port) (n : Nat) (c : Ssp) :
    phi (frames E p n c) ≤ phi c ∧ c.lost ≤ (frames E p n c).lost ∧
      (phi (frames E p n c) = phi c → frames E p n c = c ∧ (n = 0 ∨ c.tx = [])) := by
  by_cases h : c.tx = []
  · rw [frames_idle E p n c h]; exact ⟨Nat.le_refl _, Nat.le_refl _, fun _ => ⟨rfl, .inr h⟩⟩
  · cases n with
    | zero => exact ⟨Nat.le_refl _, Nat.le_refl _, fun _ => ⟨rfl, .inl rfl⟩⟩
    | succ n =>
      have h1 := frame_phi E p c h
      have h2 : phi (frames E p n (frame E p c)) ≤ phi (frame E p c) ∧
          (frame E p c).lost ≤ (frames E p n (frame E p c)).lost := by
        generalize frame E p c = d
        induction n generalizing d with
        | zero => exact ⟨Nat.le_refl _, Nat.le_refl _⟩
        | succ n ih =>
          have := ih (frame E p d)
          by_cases hd : d.tx = []
          · rw [frames_idle E p _ d hd]; exact ⟨Nat.le_refl _, Nat.le_refl _⟩
          · have h3 := frame_phi E p d hd
            show phi (frames E p n (frame E p d)) ≤ phi d ∧ d.lost ≤ (frames E p n (frame E p d)).lost
            omega
      show phi (frames E p n (frame E p c)) ≤ phi c ∧ c.lost ≤ (frames E p n (frame E p c)).lost ∧
        (phi (frames E p n (frame E p c)) = phi c → _)
      exact ⟨by omega, by omega, fun h => by omega⟩

/-- Work left in a block transfer. -/
def Phi (s : State) : Nat := 3 * s.snd.length + phi (s.hw.ssp .p0)

/-- `s'` comes after `s`; if no work was done in between then nothing changed and either no frame
was due or there was nothing to send. -/
structure Pg (E : Env) (s s' : State) : Prop where
  port : s'.port = s.port
  time : s.hw.t ≤ s'.hw.t
  lost : (s.hw.ssp .p0).lost ≤ (s'.hw.ssp .p0).lost
  le : Phi s' ≤ Phi s
  same : Phi s' = Phi s → s'.snd = s.snd ∧ s'.hw.ssp .p0 = s.hw.ssp .p0 ∧
    ∀ u, s.hw.t ≤ u → u < s'.hw.t → E.ticks .p0 u = 0 ∨ (s.hw.ssp .p0).tx = []

theorem Pg.refl (E : Env) (s : State) : Pg E s s :=
  ⟨rfl, Nat.le_refl _, Nat.le_refl _, Nat.le_refl _, fun _ => ⟨rfl, rfl, fun u h1 h2 => by omega⟩⟩

theorem Pg.trans {E : Env} {a b c : State} (h1 : Pg E a b) (h2 : Pg E b c) : Pg E a c := by
  refine ⟨h2.port.trans h1.port, Nat.le_trans h1.time h2.time, Nat.le_trans h1.lost h2.lost,
    Nat.le_trans h2.le h1.le, ?_⟩
  intro h
  have l1 := h1.le
  have l2 := h2.le
  obtain ⟨a1, a2, a3⟩ := h1.same (by omega)
  obtain ⟨b1, b2, b3⟩ := h2.same (by omega)
  refine ⟨b1.trans a1, b2.trans a2, ?_⟩
  intro u hu1 hu2
  rcases Nat.lt_or_ge u b.hw.t with h | h
  · exact a3 u hu1 h
  · rw [← a2]; exact b3 u h hu2

/-- Work was done. -/
theorem Pg.of_lt {E : Env} {s s' : State} (hp : s'.port = s.port) (ht : s.hw.t ≤ s'.hw.t)
    (hl : (s.hw.ssp .p0).lost ≤ (s'.hw.ssp .p0).lost) (h : Phi s' < Phi s) : Pg E s s' :=
  ⟨hp, ht, hl, Nat.le_of_lt h, fun he => by omega⟩

theorem Pg.advance (E : Env) (s : State) : Pg E s { s with hw := Spi.advance E s.hw } := by
  obtain ⟨h1, h2, h3⟩ := frames_phi E .p0 (E.ticks .p0 s.hw.t) (s.hw.ssp .p0)
  refine ⟨rfl, Nat.le_succ _, h2, ?_, ?_⟩
  · unfold Phi; exact Nat.add_le_add_left h1 _
  · intro h
    obtain ⟨e1, e2⟩ := h3 (by unfold Phi at h; exact Nat.add_left_cancel h)
    refine ⟨rfl, e1, ?_⟩
    intro u hu1 hu2
    have hu2 : u < s.hw.t + 1 := hu2
    have : u = s.hw.t := by omega
    rw [this]; exact e2

theorem readDR_phi (E : Env) (hw : Hw) (hne : (hw.ssp .p0).rx ≠ []) :
    phi ((readDR E .p0 hw).2.ssp .p0) < phi (hw.ssp .p0) ∧
      (hw.ssp .p0).lost ≤ ((readDR E .p0 hw).2.ssp .p0).lost ∧ hw.t < (readDR E .p0 hw).2.t := by
  obtain ⟨v, r, hv⟩ := List.exists_cons_of_ne_nil hne
  obtain ⟨r', hr'⟩ := frames_rx_cons E .p0 (E.ticks .p0 hw.t) (hw.ssp .p0) hv
  obtain ⟨h1, h2, -⟩ := frames_phi E .p0 (E.ticks .p0 hw.t) (hw.ssp .p0)
  unfold readDR setSsp
  dsimp only
  rw [if_pos rfl]
  show phi { (frames E .p0 (E.ticks .p0 hw.t) (hw.ssp .p0)) with rx := _ } < _ ∧ _ ≤ (frames E .p0 (E.ticks .p0 hw.t) (hw.ssp .p0)).lost ∧ hw.t < hw.t + 1
  have hrx : ((Spi.advance E hw).ssp .p0).rx = v :: r' := hr'
  rw [hrx]
  unfold phi at h1 ⊢
  rw [hr'] at h1
  simp only [List.tail_cons, List.length_cons] at h1 ⊢
  omega

theorem Pg.takeWord {E : Env} {s : State} (hp : s.port = .p0) (hne : (s.hw.ssp .p0).rx ≠ []) :
    Pg E s (takeWord E s) ∧ Phi (takeWord E s) < Phi s := by
  obtain ⟨port, snd, got, recCount, finished, irq, hw⟩ := s
  dsimp only at hp hne
  subst hp
  obtain ⟨h1, h2, h3⟩ := readDR_phi E hw hne
  have hlt : Phi (Spi.takeWord E ⟨.p0, snd, got, recCount, finished, irq, hw⟩)
      < Phi ⟨.p0, snd, got, recCount, finished, irq, hw⟩ := by
    unfold Phi Spi.takeWord; exact Nat.add_lt_add_left h1 _
  exact ⟨Pg.of_lt rfl (Nat.le_of_lt h3) h2 hlt, hlt⟩

theorem writeDR_phi (E : Env) (w : Word) (hw : Hw) :
    phi ((writeDR E .p0 w hw).ssp .p0) ≤ phi (hw.ssp .p0) + 2 ∧
      (hw.ssp .p0).lost ≤ ((writeDR E .p0 w hw).ssp .p0).lost ∧ hw.t ≤ (writeDR E .p0 w hw).t := by
  obtain ⟨h1, h2, -⟩ := frames_phi E .p0 (E.ticks .p0 hw.t) (hw.ssp .p0)
  have h1 : phi ((Spi.advance E hw).ssp .p0) ≤ phi (hw.ssp .p0) := h1
  have h2 : (hw.ssp .p0).lost ≤ ((Spi.advance E hw).ssp .p0).lost := h2
  unfold writeDR setSsp
  dsimp only
  split
  · dsimp only
    rw [if_pos rfl]
    refine ⟨?_, h2, Nat.le_succ _⟩
    unfold phi at h1 ⊢
    simp only [List.length_append, List.length_cons, List.length_nil]
    omega
  · exact ⟨by omega, h2, Nat.le_succ _⟩

theorem Pg.sendWord {E : Env} {s : State} {w : Word} {rest : List Word} (hp : s.port = .p0)
    (hsnd : s.snd = w :: rest) : Pg E s (sendWord E s w rest) ∧ Phi (sendWord E s w rest) < Phi s := by
  obtain ⟨port, snd, got, recCount, finished, irq, hw⟩ := s
  dsimp only at hp hsnd
  subst hp hsnd
  have key : ∀ hw1 : Hw, phi (hw1.ssp .p0) ≤ phi (hw.ssp .p0) → hw.t ≤ hw1.t →
      (hw.ssp .p0).lost ≤ (hw1.ssp .p0).lost →
      phi ((readRIS E (writeDR E .p0 w hw1)).ssp .p0) ≤ phi (hw.ssp .p0) + 2 ∧
      hw.t ≤ (readRIS E (writeDR E .p0 w hw1)).t ∧
      (hw.ssp .p0).lost ≤ ((readRIS E (writeDR E .p0 w hw1)).ssp .p0).lost := by
    intro hw1 a1 a2 a3
    obtain ⟨w1, w2, w3⟩ := writeDR_phi E w hw1
    generalize writeDR E .p0 w hw1 = hw2 at w1 w2 w3
    obtain ⟨f1, f2, -⟩ := frames_phi E .p0 (E.ticks .p0 hw2.t) (hw2.ssp .p0)
    have f1 : phi ((readRIS E hw2).ssp .p0) ≤ phi (hw2.ssp .p0) := f1
    have f2 : (hw2.ssp .p0).lost ≤ ((readRIS E hw2).ssp .p0).lost := f2
    have f3 : (readRIS E hw2).t = hw2.t + 1 := rfl
    omega
  obtain ⟨f1, f2, -⟩ := frames_phi E .p0 (E.ticks .p0 hw.t) (hw.ssp .p0)
  have f1 : phi ((Spi.advance E hw).ssp .p0) ≤ phi (hw.ssp .p0) := f1
  have f2 : (hw.ssp .p0).lost ≤ ((Spi.advance E hw).ssp .p0).lost := f2
  have f3 : (Spi.advance E hw).t = hw.t + 1 := rfl
  have concl : ∀ hw1 : Hw, ∀ g c, phi (hw1.ssp .p0) ≤ phi (hw.ssp .p0) → hw.t ≤ hw1.t →
      (hw.ssp .p0).lost ≤ (hw1.ssp .p0).lost →
      Pg E ⟨.p0, w :: rest, got, recCount, finished, irq, hw⟩
        ⟨.p0, rest, g, c, finished, irq, readRIS E (writeDR E .p0 w hw1)⟩ ∧
      Phi ⟨.p0, rest, g, c, finished, irq, readRIS E (writeDR E .p0 w hw1)⟩
        < Phi ⟨.p0, w :: rest, got, recCount, finished, irq, hw⟩ := by
    intro hw1 g c a1 a2 a3
    obtain ⟨b1, b2, b3⟩ := key hw1 a1 a2 a3
    have hlt : Phi ⟨.p0, rest, g, c, finished, irq, readRIS E (writeDR E .p0 w hw1)⟩
        < Phi ⟨.p0, w :: rest, got, recCount, finished, irq, hw⟩ := by
      unfold Phi; simp only [List.length_cons]; omega
    exact ⟨Pg.of_lt rfl b2 b3 hlt, hlt⟩
  unfold Spi.sendWord
  dsimp only
  split
  · rename_i hr
    have hne := (rne_iff E .p0 hw).mp hr
    obtain ⟨r1, r2, r3⟩ := readDR_phi E (Spi.advance E hw) hne
    exact concl (readDR E .p0 (Spi.advance E hw)).2 _ _ (by omega) (by omega) (by omega)
  · exact concl (Spi.advance E hw) _ _ f1 (by omega) f2

theorem Pg.readSR (E : Env) (q : Port) (s : State) : Pg E s { s with hw := (readSR E q s.hw).2 } :=
  Pg.advance E s

/-- The sending loop. If it does nothing, there is nothing to send or the FIFO is full; with something to
send it takes at least one access. -/
theorem Pg.sendLoop (E : Env) (m : Nat) (s : State) (hp : s.port = .p0) :
    Pg E s (sendLoop E m s) ∧ (s.snd ≠ [] → s.hw.t < (Spi.sendLoop E m s).hw.t) ∧
      (0 < m → Phi (Spi.sendLoop E m s) = Phi s → s.snd = [] ∨ E.room ≤ (s.hw.ssp .p0).tx.length) := by
  induction m generalizing s with
  | zero =>
    unfold Spi.sendLoop
    split
    · rename_i h; exact ⟨Pg.refl E s, fun h' => absurd h h', fun h => by omega⟩
    · dsimp only
      split <;> exact ⟨Pg.readSR E s.port s, fun _ => Nat.lt_succ_self _, fun h => by omega⟩
  | succ m ih =>
    unfold Spi.sendLoop
    split
    · rename_i h; exact ⟨Pg.refl E s, fun h' => absurd h h', fun _ _ => .inl h⟩
    · rename_i w rest hsnd
      dsimp only
      have h0 := Pg.readSR E s.port s
      split
      · obtain ⟨h1, h1'⟩ := Pg.sendWord (E := E) (s := { s with hw := (Spi.readSR E s.port s.hw).2 })
          (w := w) (rest := rest) hp hsnd
        have hp1 : (Spi.sendWord E { s with hw := (Spi.readSR E s.port s.hw).2 } w rest).port = .p0 :=
          h1.port.trans hp
        obtain ⟨h2, -, -⟩ := ih _ hp1
        refine ⟨h0.trans (h1.trans h2), ?_, ?_⟩
        · intro _
          have t1 : s.hw.t + 1 ≤ _ := h1.time
          have t2 := h2.time
          omega
        · intro _ he
          have l0 := h0.le
          have l2 := h2.le
          omega
      · rename_i ht
        refine ⟨h0, fun _ => Nat.lt_succ_self _, ?_⟩
        intro _ he
        right
        obtain ⟨-, e2, -⟩ := h0.same he
        rw [hp] at ht
        have : ¬ ((Spi.readSR E .p0 s.hw).2.ssp .p0).tx.length < E.room := fun h => ht ((tnf_iff E .p0 s.hw).mpr h)
        have e3 : (Spi.readSR E .p0 s.hw).2.ssp .p0 = s.hw.ssp .p0 := by rw [hp] at e2; exact e2
        rw [e3] at this
        omega

/-- The receiving loop. If it does nothing although words are missing, the receive FIFO is empty. -/
theorem Pg.recvLoop (E : Env) (f : Nat) (s : State) (hp : s.port = .p0) :
    Pg E s (recvLoop E f s) ∧ (0 < f → s.recCount ≠ 0 → s.hw.t < (Spi.recvLoop E f s).hw.t ∧
      (Phi (Spi.recvLoop E f s) = Phi s → (s.hw.ssp .p0).rx = [])) := by
  induction f generalizing s with
  | zero => exact ⟨Pg.refl E s, fun h => by omega⟩
  | succ f ih =>
    unfold Spi.recvLoop
    split
    · dsimp only
      have h0 := Pg.readSR E s.port s
      split
      · rename_i hr
        rw [hp] at hr
        have hne := (rne_iff E .p0 s.hw).mp hr
        obtain ⟨h1, h1'⟩ := Pg.takeWord (E := E) (s := { s with hw := (Spi.readSR E s.port s.hw).2 }) hp
          (by rw [hp]; exact hne)
        have h2 := Pg.advance E (Spi.takeWord E { s with hw := (Spi.readSR E s.port s.hw).2 })
        have hp2 : ({ Spi.takeWord E { s with hw := (Spi.readSR E s.port s.hw).2 } with
            hw := readRIS E (Spi.takeWord E { s with hw := (Spi.readSR E s.port s.hw).2 }).hw } : State).port = .p0 :=
          h1.port.trans hp
        obtain ⟨h3, -⟩ := ih _ hp2
        refine ⟨h0.trans (h1.trans (h2.trans h3)), fun _ _ => ⟨?_, ?_⟩⟩
        · have t1 : s.hw.t + 1 ≤ _ := h1.time
          have t2 := h2.time
          have t3 := h3.time
          exact Nat.lt_of_lt_of_le (Nat.lt_of_succ_le t1) (Nat.le_trans t2 t3)
        · intro he
          exact absurd he (Nat.ne_of_lt (Nat.lt_of_le_of_lt (Nat.le_trans h3.le h2.le)
            (Nat.lt_of_lt_of_le h1' h0.le)))
      · rename_i hr
        refine ⟨h0, fun _ _ => ⟨Nat.lt_succ_self _, ?_⟩⟩
        intro he
        obtain ⟨-, e2, -⟩ := h0.same he
        rw [hp] at hr
        have h1 : ¬ ((Spi.advance E s.hw).ssp .p0).rx ≠ [] := fun h => hr ((rne_iff E .p0 s.hw).mpr h)
        rw [show (Spi.advance E s.hw).ssp .p0 = s.hw.ssp .p0 from e2] at h1
        exact Classical.byContradiction h1
    · rename_i h
      exact ⟨Pg.refl E s, fun _ h' => absurd h' h⟩

theorem sendLoop_stays (E : Env) (m : Nat) (s : State) (hp : s.port = .p0)
    (h : Phi (sendLoop E m s) = Phi s) : (sendLoop E m s).recCount = s.recCount := by
  cases m with
  | zero => unfold sendLoop; split <;> (try dsimp only) <;> (try split) <;> rfl
  | succ m =>
    unfold sendLoop at h ⊢
    split
    · rfl
    · rename_i w rest hsnd
      simp only [hsnd] at h
      dsimp only at h ⊢
      split
      · rename_i ht
        rw [if_pos ht] at h
        exfalso
        have h0 := Pg.readSR E s.port s
        obtain ⟨h1, h1'⟩ := Pg.sendWord (E := E) (s := { s with hw := (readSR E s.port s.hw).2 })
          (w := w) (rest := rest) hp hsnd
        have hp1 : (sendWord E { s with hw := (readSR E s.port s.hw).2 } w rest).port = .p0 := h1.port.trans hp
        exact absurd h (Nat.ne_of_lt (Nat.lt_of_le_of_lt (Pg.sendLoop E m _ hp1).1.le
          (Nat.lt_of_lt_of_le h1' h0.le)))
      · rfl

theorem Pg.continueBlock (E : Env) (s : State) (hp : s.port = .p0) :
    Pg E s (continueBlock E s) ∧ (Phi (Spi.continueBlock E s) = Phi s → s.recCount ≠ 0 →
      s.hw.t < (Spi.continueBlock E s).hw.t ∧ (s.hw.ssp .p0).rx = [] ∧
      (s.snd = [] ∨ E.room ≤ (s.hw.ssp .p0).tx.length)) := by
  obtain ⟨h1, h1a, h1b⟩ := Pg.sendLoop E 8 s hp
  have hst := sendLoop_stays E 8 s hp
  have hp1 : (Spi.sendLoop E 8 s).port = .p0 := h1.port.trans hp
  unfold Spi.continueBlock
  dsimp only
  generalize Spi.sendLoop E 8 s = s1 at h1 h1a h1b hst hp1
  obtain ⟨h2, h2a⟩ := Pg.recvLoop E ((s1.hw.ssp s1.port).tx.length + (s1.hw.ssp s1.port).rx.length + 1) s1 hp1
  generalize Spi.recvLoop E ((s1.hw.ssp s1.port).tx.length + (s1.hw.ssp s1.port).rx.length + 1) s1 = s2 at h2 h2a
  have h12 := h1.trans h2
  have main : Phi s2 = Phi s → s.recCount ≠ 0 → s.hw.t < s2.hw.t ∧ (s.hw.ssp .p0).rx = [] ∧
      (s.snd = [] ∨ E.room ≤ (s.hw.ssp .p0).tx.length) := by
    intro he hr
    have l1 := h1.le
    have l2 := h2.le
    have e1 : Phi s1 = Phi s := by omega
    have e2 : Phi s2 = Phi s1 := by omega
    obtain ⟨-, e3, -⟩ := h1.same e1
    obtain ⟨t2, r2⟩ := h2a (by omega) (by rw [hst e1]; exact hr)
    have t1 := h1.time
    refine ⟨by omega, ?_, h1b (by omega) e1⟩
    rw [← e3]; exact r2 e2
  split
  · exact ⟨⟨h12.port, h12.time, h12.lost, h12.le, h12.same⟩, main⟩
  · exact ⟨h12, main⟩

theorem finalize_step (E : Env) (k : Nat) (s : State) : finalize E (k + 1) s =
    if s.recCount ≠ 0 then finalize E k (continueBlock E s) else s := rfl

theorem finalize_add (E : Env) (k j : Nat) (s : State) : finalize E (k + j) s = finalize E j (finalize E k s) := by
  induction k generalizing s with
  | zero => rw [Nat.zero_add]; rfl
  | succ k ih =>
    rw [show k + 1 + j = (k + j) + 1 by omega, finalize_step, finalize_step]
    split
    · exact ih _
    · rename_i h
      cases j with
      | zero => rfl
      | succ j => rw [finalize_step, if_neg h]

theorem Pg.finalize (E : Env) (k : Nat) (s : State) (hp : s.port = .p0) : Pg E s (finalize E k s) := by
  induction k generalizing s with
  | zero => exact Pg.refl E s
  | succ k ih =>
    rw [finalize_step]
    split
    · have h := (Pg.continueBlock E s hp).1
      exact h.trans (ih _ (h.port.trans hp))
    · exact Pg.refl E s

/-- Time passes in every round without work. -/
theorem finalize_time (E : Env) (k : Nat) (s : State) (hp : s.port = .p0)
    (hr : ∀ j, j < k → (finalize E j s).recCount ≠ 0) (hphi : Phi (finalize E k s) = Phi s) :
    s.hw.t + k ≤ (finalize E k s).hw.t := by
  induction k with
  | zero => exact Nat.le_refl _
  | succ k ih =>
    have hk := Pg.finalize E k s hp
    have e : finalize E (k + 1) s = continueBlock E (finalize E k s) := by
      rw [finalize_add, finalize_step, if_pos (hr k (by omega))]; rfl
    rw [e] at hphi ⊢
    have hc := Pg.continueBlock E (finalize E k s) (hk.port.trans hp)
    have l1 := hk.le
    have l2 := hc.1.le
    have := (hc.2 (by omega) (hr k (by omega))).1
    have := ih (fun j hj => hr j (by omega)) (by omega)
    omega

/-- With a fair clock a transfer returns, unless words get lost. -/
theorem finalize_returns {E : Env} {full : List Word} {L0 lost0 n : Nat} (hroom : 0 < E.room)
    (hfair : ∀ t, ∃ u, t ≤ u ∧ 0 < E.ticks .p0 u) (hn : full.length = L0 + n) (s : State)
    (h : BInv E full L0 lost0 n s)
    (hlost : ∀ k, ((finalize E k s).hw.ssp .p0).lost = lost0) : ∃ k, (finalize E k s).recCount = 0 := by
  generalize hm : Phi s = m
  induction m using Nat.strongRecOn generalizing s with
  | _ m ih =>
    apply Classical.byContradiction
    intro hno
    have hr : ∀ k, (finalize E k s).recCount ≠ 0 := fun k hk => hno ⟨k, hk⟩
    have hphi : ∀ k, Phi (finalize E k s) = Phi s := by
      intro k
      have hle := (Pg.finalize E k s h.port).le
      rcases Nat.lt_or_ge (Phi (finalize E k s)) (Phi s) with hlt | hge
      · exfalso
        obtain ⟨j, hj⟩ := ih _ (by omega) (finalize E k s) (h.finalize k)
          (fun j => by rw [← finalize_add]; exact hlost _) rfl
        rw [← finalize_add] at hj
        exact hr _ hj
      · omega
    obtain ⟨u, hu1, hu2⟩ := hfair s.hw.t
    have htime := finalize_time E (u - s.hw.t + 1) s h.port (fun j _ => hr j) (hphi _)
    have htx : (s.hw.ssp .p0).tx = [] := by
      rcases ((Pg.finalize E (u - s.hw.t + 1) s h.port).same (hphi _)).2.2 u hu1 (by omega) with h0 | h0
      · omega
      · exact h0
    have hr0 : s.recCount ≠ 0 := hr 0
    have e : finalize E 1 s = continueBlock E s := by rw [finalize_step, if_pos hr0]; rfl
    obtain ⟨-, hrx, hsnd⟩ := (Pg.continueBlock E s h.port).2 (by rw [← e]; exact hphi 1) (hr 0)
    have hsnd : s.snd = [] := by
      rcases hsnd with h0 | h0
      · exact h0
      · rw [htx] at h0; simp at h0; omega
    have hw := h.hw.words
    have hc := h.hw.count
    have hs := h.hw.start
    have hl : (s.hw.ssp .p0).lost = lost0 := hlost 0
    have hcnt := h.cnt
    have hlen : (s.hw.ssp .p0).wire.length = full.length := by rw [← hw, htx, hsnd]; simp
    rw [hrx, hl] at hc
    simp only [List.length_nil] at hc
    exact hr 0 (by show s.recCount = 0; omega)

end Verif.Spi
