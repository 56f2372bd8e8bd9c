import Verif.Spi.Lemmas

/-!
# C66: SPI transfers

For every slave, every hardware timing (`Env.ticks`) and every state of the controllers in which the port
is idle.
-/

namespace Verif.Spi

/-! ## Specification -/

/-- The words a slave that has seen the frames `before` shifts out while the words `ws` are sent to it. -/
def answers (E : Env) (p : Port) (before ws : List Word) : List Word :=
  (List.range ws.length).map (fun i => E.slave p (before ++ ws.take i))

/-- Nothing is being sent on port `p`. -/
def Idle (p : Port) (hw : Hw) : Prop := (hw.ssp p).tx = []

/-- All frames ever sent on port `p`. -/
abbrev sent (p : Port) (hw : Hw) : List Word := (hw.ssp p).wire

/-- Number of words port `p` has lost because its receive FIFO was full. -/
abbrev overruns (p : Port) (hw : Hw) : Nat := (hw.ssp p).lost

/-- The call has returned (its last loop ends when no word is missing). -/
def Returned (s : State) : Prop := s.recCount = 0

instance (s : State) : Decidable (Returned s) := inferInstanceAs (Decidable (s.recCount = 0))

/-- The clock of port `p` does not stop. -/
def Running (E : Env) (p : Port) : Prop := ∀ t, ∃ u, t ≤ u ∧ 0 < E.ticks p u

/-- The transfer of `ws` on port `p` is complete and correct: exactly these words were sent, in this order,
the received words are those the slave answered, in this order, and the port is idle again with an
empty receive FIFO. -/
structure Done (E : Env) (p : Port) (ws : List Word) (hw : Hw) (got : List Word) (hw' : Hw) : Prop where
  wordsSent : sent p hw' = sent p hw ++ ws
  received : got = answers E p (sent p hw) ws
  idle : Idle p hw'
  empty : (hw'.ssp p).rx = []
  none_lost : overruns p hw' = overruns p hw

/-! ## Block transfers -/

theorem ans_eq_answers (E : Env) (p : Port) (before ws : List Word) :
    ans E p (before ++ ws) before.length ws.length = answers E p before ws := by
  unfold ans answers
  have hr : List.range' before.length ws.length = (List.range ws.length).map (before.length + ·) := by
    rw [List.range_eq_range', List.map_add_range', Nat.add_zero]
  rw [hr, List.map_map]
  apply List.map_congr_left
  intro i _
  simp [List.take_append, List.take_of_length_le]

theorem BInv.done {E : Env} {hw : Hw} {ws : List Word} {s : State}
    (h : BInv E ((hw.ssp .p0).wire ++ ws) (hw.ssp .p0).wire.length (hw.ssp .p0).lost ws.length s)
    (hr : s.recCount = 0) : Done E .p0 ws hw s.got s.hw ∧ s.snd = [] := by
  obtain ⟨-, h2, h3⟩ := h
  obtain ⟨w1, w2, w3, w4, -⟩ := h2
  have hg : s.got.length = ws.length := by omega
  have hl := congrArg List.length w1
  simp only [List.length_append] at hl
  have hle := w3.length_le
  rw [ans_length, List.length_append] at hle
  have hsnd : s.snd = [] := List.length_eq_zero_iff.mp (by omega)
  have htx : (s.hw.ssp .p0).tx = [] := List.length_eq_zero_iff.mp (by omega)
  have hrx : (s.hw.ssp .p0).rx = [] := List.length_eq_zero_iff.mp (by omega)
  refine ⟨⟨?_, ?_, htx, hrx, ?_⟩, hsnd⟩
  · rw [hsnd, htx] at w1; simpa using w1
  · have he := w3.eq_of_length (by rw [ans_length, List.length_append]; omega)
    rw [hrx, List.append_nil] at he
    rw [he, ← ans_eq_answers]
    congr 1
    omega
  · show (s.hw.ssp .p0).lost = (hw.ssp .p0).lost
    omega

/-- **C66.** Whenever a synchronous block transfer on port 0 returns, it is complete and correct. -/
theorem C66_block_exact (E : Env) (ws : List Word) (hw : Hw) (hidle : Idle .p0 hw) (k : Nat)
    (hret : Returned (transferBlock E .p0 ws k hw)) :
    Done E .p0 ws hw (transferBlock E .p0 ws k hw).got (transferBlock E .p0 ws k hw).hw :=
  (((startBlock_inv E ws hw hidle).finalize k).done hret).1

/-- **C66.** The same for an asynchronous transfer on port 0, with any number of interrupts at any times
before `finalizeBlockTransfer` is called. -/
theorem C66_async_exact (E : Env) (ws : List Word) (hw : Hw) (hidle : Idle .p0 hw) (m k : Nat)
    (hret : Returned (transferAsync E .p0 ws m k hw)) :
    Done E .p0 ws hw (transferAsync E .p0 ws m k hw).got (transferAsync E .p0 ws m k hw).hw := by
  have h0 := startBlock_inv E ws hw hidle
  have h1 : BInv E ((hw.ssp .p0).wire ++ ws) (hw.ssp .p0).wire.length (hw.ssp .p0).lost ws.length
      { startBlock E .p0 ws hw with irq := true } := ⟨h0.port, h0.hw, h0.cnt⟩
  exact (((h1.irqs m).finalize k).done hret).1

/-- **C66.** At any moment of a transfer - returned or not - the words sent are the first words of the block,
and the words received so far are answers in the right order. -/
theorem C66_prefix (E : Env) (ws : List Word) (hw : Hw) (hidle : Idle .p0 hw) (k : Nat) :
    ∃ j, j ≤ ws.length ∧ sent .p0 (transferBlock E .p0 ws k hw).hw = sent .p0 hw ++ ws.take j ∧
      (transferBlock E .p0 ws k hw).got.Sublist (answers E .p0 (sent .p0 hw) (ws.take j)) := by
  have h := ((startBlock_inv E ws hw hidle).finalize k).hw
  have hd : (finalize E k (startBlock E .p0 ws hw)) = transferBlock E .p0 ws k hw := rfl
  rw [hd] at h
  generalize transferBlock E .p0 ws k hw = s at h
  obtain ⟨w1, w2, w3, -, -⟩ := h
  have hl := congrArg List.length w1
  simp only [List.length_append] at hl
  refine ⟨(s.hw.ssp .p0).wire.length - (hw.ssp .p0).wire.length, by omega, ?_, ?_⟩
  · have : (s.hw.ssp .p0).wire = ((hw.ssp .p0).wire ++ ws).take (s.hw.ssp .p0).wire.length := by
      rw [← w1, List.append_assoc, List.take_left]
    rw [List.take_append, List.take_of_length_le w2] at this
    exact this
  · refine (List.sublist_append_left _ _).trans (w3.trans ?_)
    rw [← ans_eq_answers, List.length_take_of_le (by omega)]
    have he : ans E .p0 ((hw.ssp .p0).wire ++ ws) (hw.ssp .p0).wire.length
          ((s.hw.ssp .p0).wire.length - (hw.ssp .p0).wire.length) =
        ans E .p0 ((hw.ssp .p0).wire ++
          ws.take ((s.hw.ssp .p0).wire.length - (hw.ssp .p0).wire.length)) (hw.ssp .p0).wire.length
          ((s.hw.ssp .p0).wire.length - (hw.ssp .p0).wire.length) := by
      unfold ans
      refine List.map_congr_left fun i hi => ?_
      rw [List.mem_range'_1] at hi
      congr 1
      rw [List.take_append, List.take_append, List.take_take]
      congr 2
      omega
    rw [he]
    exact List.Sublist.refl _

/-- **C66 (part).** If the clock runs, a synchronous block transfer on port 0 returns - or a received word
gets lost because the program was held up for too long. -/
theorem C66_returns_or_overrun_partial (E : Env) (hroom : 0 < E.room) (hrun : Running E .p0)
    (ws : List Word) (hw : Hw) (hidle : Idle .p0 hw) :
    (∃ k, Returned (transferBlock E .p0 ws k hw)) ∨
      ∃ k, overruns .p0 hw < overruns .p0 (transferBlock E .p0 ws k hw).hw := by
  have h := startBlock_inv E ws hw hidle
  by_cases hl : ∀ k, ((finalize E k (startBlock E .p0 ws hw)).hw.ssp .p0).lost = (hw.ssp .p0).lost
  · exact .inl (finalize_returns hroom hrun (by simp) _ h hl)
  · right
    obtain ⟨k, hk⟩ := Classical.not_forall.mp hl
    refine ⟨k, ?_⟩
    have hc := (h.finalize k).hw
    have hle := hc.recv.length_le
    have hcnt := hc.count
    rw [ans_length, List.length_append] at hle
    show (hw.ssp .p0).lost < ((finalize E k (startBlock E .p0 ws hw)).hw.ssp .p0).lost
    omega

/-- **C66 (part).** A block of up to 8 words (the depth of the FIFO) always returns, however the hardware and
the program are timed. -/
theorem C66_short_block_returns_partial (E : Env) (hroom : 0 < E.room) (hrun : Running E .p0)
    (ws : List Word) (h8 : ws.length ≤ 8) (hw : Hw) (hidle : Idle .p0 hw) :
    ∃ k, Returned (transferBlock E .p0 ws k hw) := by
  have h := startBlock_inv E ws hw hidle
  refine finalize_returns hroom hrun (by simp) _ h ?_
  intro k
  exact (h.finalize k).hw.short (by simp; omega)

/-- **C66, finding.** Once a received word is lost, a synchronous block transfer never returns: it waits for
the missing word forever. -/
theorem C66_overrun_hangs (E : Env) (ws : List Word) (hw : Hw) (hidle : Idle .p0 hw) (k : Nat)
    (hlost : overruns .p0 hw < overruns .p0 (transferBlock E .p0 ws k hw).hw) (j : Nat) :
    ¬ Returned (transferBlock E .p0 ws j hw) := by
  intro hret
  have h := startBlock_inv E ws hw hidle
  have hdone := C66_block_exact E ws hw hidle j hret
  have hl := hdone.none_lost
  rcases Nat.le_total k j with hkj | hjk
  · obtain ⟨d, rfl⟩ := Nat.exists_eq_add_of_le hkj
    have hp := (h.finalize k).port
    have hmono := (Pg.finalize E d (finalize E k (startBlock E .p0 ws hw)) hp).lost
    rw [← finalize_add] at hmono
    have hmono : overruns .p0 (transferBlock E .p0 ws k hw).hw
      ≤ overruns .p0 (transferBlock E .p0 ws (k + d) hw).hw := hmono
    omega
  · obtain ⟨d, rfl⟩ := Nat.exists_eq_add_of_le hjk
    have hstay : transferBlock E .p0 ws (j + d) hw = transferBlock E .p0 ws j hw := by
      unfold transferBlock at hret ⊢
      rw [finalize_add]
      cases d with
      | zero => rfl
      | succ d => rw [finalize_step, if_neg (fun hc => hc hret)]
    rw [hstay] at hlost
    omega

/-! ## Port 1 -/

theorem frames_other (E : Env) (hw : Hw) (h : Idle .p1 hw) : (advance E hw).ssp .p1 = hw.ssp .p1 :=
  frames_idle E .p1 _ _ h

/-- Port 1 during a block transfer of an object for port 1. -/
structure P1 (c : Ssp) (n : Int) (s : State) : Prop where
  port : s.port = .p1
  ssp : s.hw.ssp .p1 = c
  cnt : s.recCount = n

theorem P1.advance {E : Env} {c : Ssp} {n : Int} {s : State} (htx : c.tx = []) (h : P1 c n s) :
    P1 c n { s with hw := Spi.advance E s.hw } := by
  refine ⟨h.port, ?_, h.cnt⟩
  rw [← h.ssp]
  exact frames_idle E .p1 _ _ (by rw [h.ssp]; exact htx)

theorem P1.noRne {E : Env} {c : Ssp} {n : Int} {s : State} (htx : c.tx = []) (hrx : c.rx = []) (h : P1 c n s) :
    ¬ (readSR E s.port s.hw).1.rne = true := by
  rw [rne_iff, h.port]
  have := (P1.advance (E := E) htx h).ssp
  have this : (Spi.advance E s.hw).ssp .p1 = c := this
  rw [this]
  exact fun hne => hne hrx

theorem P1.sendWord {E : Env} {c : Ssp} {n : Int} {s : State} {w : Word} {rest : List Word} (htx : c.tx = [])
    (hrx : c.rx = []) (h : P1 c n s) : P1 c n (sendWord E s w rest) := by
  have hs : P1 c n { s with snd := rest } := ⟨h.port, h.ssp, h.cnt⟩
  have hn := hs.noRne (E := E) htx hrx
  have h1 := hs.advance (E := E) htx
  unfold Spi.sendWord
  dsimp only at hn ⊢
  rw [if_neg hn]
  have h2 : P1 c n { s with snd := rest, hw := writeDR E .p0 w (readSR E s.port s.hw).2 } := by
    refine ⟨h.port, ?_, h.cnt⟩
    show (writeDR E .p0 w (readSR E s.port s.hw).2).ssp .p1 = c
    rw [writeDR_other _ _ _ _ _ (by decide)]
    exact (h1.advance (E := E) htx).ssp
  exact h2.advance htx

theorem P1.sendLoop {E : Env} {c : Ssp} {n : Int} (m : Nat) {s : State} (htx : c.tx = [])
    (hrx : c.rx = []) (h : P1 c n s) : P1 c n (sendLoop E m s) := by
  induction m generalizing s with
  | zero =>
    unfold Spi.sendLoop
    split
    · exact h
    · dsimp only; split <;> exact h.advance htx
  | succ m ih =>
    unfold Spi.sendLoop
    split
    · exact h
    · dsimp only
      split
      · exact ih ((h.advance (E := E) htx).sendWord htx hrx)
      · exact h.advance htx

theorem P1.recvLoop {E : Env} {c : Ssp} {n : Int} (f : Nat) {s : State} (htx : c.tx = [])
    (hrx : c.rx = []) (h : P1 c n s) : P1 c n (recvLoop E f s) := by
  cases f with
  | zero => exact h
  | succ f =>
    unfold Spi.recvLoop
    split
    · dsimp only
      rw [if_neg (h.noRne (E := E) htx hrx)]
      exact h.advance htx
    · exact h

theorem P1.continueBlock {E : Env} {c : Ssp} {n : Int} {s : State} (htx : c.tx = [])
    (hrx : c.rx = []) (h : P1 c n s) : P1 c n (continueBlock E s) := by
  unfold Spi.continueBlock
  dsimp only
  have h1 := (h.sendLoop (E := E) 8 htx hrx).recvLoop (E := E)
    ((((Spi.sendLoop E 8 s).hw.ssp (Spi.sendLoop E 8 s).port).tx.length +
    ((Spi.sendLoop E 8 s).hw.ssp (Spi.sendLoop E 8 s).port).rx.length + 1)) htx hrx
  split
  · exact ⟨h1.port, h1.ssp, h1.cnt⟩
  · exact h1

theorem P1.finalize {E : Env} {c : Ssp} {n : Int} (k : Nat) {s : State} (htx : c.tx = [])
    (hrx : c.rx = []) (h : P1 c n s) : P1 c n (finalize E k s) := by
  induction k generalizing s with
  | zero => exact h
  | succ k ih =>
    rw [finalize_step]
    split
    · exact ih (h.continueBlock htx hrx)
    · exact h

/-- **C66, finding.** On port 1 block transfers do not work at all: the words are written to the data register
of port 0. For every block that is not empty, every slave and every timing, no word is ever sent on
port 1, none is received, and a synchronous transfer never returns. -/
theorem C66_port1_hangs (E : Env) (ws : List Word) (hne : ws ≠ []) (hw : Hw) (hidle : Idle .p1 hw) (k : Nat) :
    ¬ Returned (transferBlock E .p1 ws k hw) ∧ sent .p1 (transferBlock E .p1 ws k hw).hw = sent .p1 hw := by
  have hd := drain_idle E .p1 hw hidle
  have h0 : P1 { hw.ssp .p1 with rx := [] } ws.length
      ⟨.p1, ws, [], ws.length, false, false, drain E .p1 hw⟩ := ⟨rfl, hd, rfl⟩
  have htx : ({ hw.ssp .p1 with rx := [] } : Ssp).tx = [] := hidle
  have h := (h0.continueBlock (E := E) htx rfl).finalize (E := E) k htx rfl
  have h : P1 { hw.ssp .p1 with rx := [] } ws.length (transferBlock E .p1 ws k hw) := h
  have hl : ws.length ≠ 0 := fun h => hne (List.length_eq_zero_iff.mp h)
  refine ⟨?_, ?_⟩
  · unfold Returned; rw [h.cnt]; omega
  · show ((transferBlock E .p1 ws k hw).hw.ssp .p1).wire = _
    rw [h.ssp]

/-! ## Single words -/

theorem waitIdle_some {E : Env} {p : Port} {k : Nat} {hw hw' : Hw} (h : waitIdle E p k hw = some hw')
    {full : List Word} {L0 lost0 : Nat} {got rest : List Word} (hi : HInv E p full L0 lost0 got rest (hw.ssp p)) :
    HInv E p full L0 lost0 got rest (hw'.ssp p) ∧ (hw'.ssp p).tx = [] := by
  induction k generalizing hw with
  | zero => cases h
  | succ k ih =>
    unfold waitIdle at h
    dsimp only at h
    split at h
    · exact ih h hi.advance
    · rename_i hb
      cases h
      refine ⟨hi.advance, ?_⟩
      have : (!((advance E hw).ssp p).tx.isEmpty) = false := by simpa [readSR] using hb
      show ((advance E hw).ssp p).tx = []
      simpa using this

theorem waitIdle_returns {E : Env} {p : Port} (hrun : Running E p) (hw : Hw) : ∃ k hw', waitIdle E p k hw = some hw' := by
  generalize hm : (hw.ssp p).tx.length = m
  induction m using Nat.strongRecOn generalizing hw with
  | _ m ih =>
    -- wait until the next frame
    have wait : ∀ d hw1, (hw1.ssp p).tx.length = m → 0 < E.ticks p (hw1.t + d) →
        (∀ i, i < d → E.ticks p (hw1.t + i) = 0) → ∃ k hw', waitIdle E p k hw1 = some hw' := by
      intro d
      induction d with
      | zero =>
        intro hw1 hl ht _
        by_cases hb : (readSR E p hw1).1.bsy = true
        · have hne : (hw1.ssp p).tx ≠ [] := by
            intro h0
            have : (readSR E p hw1).1.bsy = false := by
              show (!((advance E hw1).ssp p).tx.isEmpty) = false
              have : (advance E hw1).ssp p = hw1.ssp p := frames_idle E p _ _ h0
              rw [this, h0]; rfl
            rw [this] at hb; exact absurd hb (by decide)
          have hlt : ((readSR E p hw1).2.ssp p).tx.length < m := by
            rw [Nat.add_zero] at ht
            show (frames E p (E.ticks p hw1.t) (hw1.ssp p)).tx.length < m
            obtain ⟨n, hn⟩ := Nat.exists_eq_succ_of_ne_zero (Nat.ne_of_gt ht)
            rw [hn]
            refine Nat.lt_of_le_of_lt (frames_tx_le E p n _) ?_
            rw [frame_tx, List.length_tail]
            have : (hw1.ssp p).tx.length ≠ 0 := fun h => hne (List.length_eq_zero_iff.mp h)
            omega
          obtain ⟨k, hw', hk⟩ := ih _ hlt (readSR E p hw1).2 rfl
          exact ⟨k + 1, hw', by unfold waitIdle; dsimp only; rw [if_pos hb]; exact hk⟩
        · exact ⟨1, (readSR E p hw1).2, by unfold waitIdle; dsimp only; rw [if_neg hb]⟩
      | succ d ihd =>
        intro hw1 hl ht hz
        by_cases hb : (readSR E p hw1).1.bsy = true
        · have h0 : (readSR E p hw1).2.ssp p = hw1.ssp p := by
            show frames E p (E.ticks p hw1.t) (hw1.ssp p) = _
            have := hz 0 (by omega)
            rw [Nat.add_zero] at this
            rw [this]; rfl
          have ht' : (readSR E p hw1).2.t = hw1.t + 1 := rfl
          obtain ⟨k, hw', hk⟩ := ihd (readSR E p hw1).2 (by rw [h0]; exact hl)
            (by rw [ht', show hw1.t + 1 + d = hw1.t + (d + 1) by omega]; exact ht)
            (fun i hi => by rw [ht', show hw1.t + 1 + i = hw1.t + (i + 1) by omega]; exact hz _ (by omega))
          exact ⟨k + 1, hw', by unfold waitIdle; dsimp only; rw [if_pos hb]; exact hk⟩
        · exact ⟨1, (readSR E p hw1).2, by unfold waitIdle; dsimp only; rw [if_neg hb]⟩
    -- the first access from now on at which a frame completes
    obtain ⟨u, hu1, hu2⟩ := hrun hw.t
    have first : ∀ b, (∃ d, d ≤ b ∧ 0 < E.ticks p (hw.t + d)) →
        ∃ d, 0 < E.ticks p (hw.t + d) ∧ ∀ i, i < d → E.ticks p (hw.t + i) = 0 := by
      intro b
      induction b with
      | zero => rintro ⟨d, hd, h⟩; exact ⟨d, h, fun i hi => by omega⟩
      | succ b ihb =>
        rintro ⟨d, hd, h⟩
        by_cases hex : ∃ d', d' ≤ b ∧ 0 < E.ticks p (hw.t + d')
        · exact ihb hex
        · refine ⟨d, h, fun i hi => ?_⟩
          rcases Nat.eq_zero_or_pos (E.ticks p (hw.t + i)) with h0 | h0
          · exact h0
          · exact absurd ⟨i, by omega, h0⟩ hex
    obtain ⟨d, hd1, hd2⟩ := first (u - hw.t) ⟨u - hw.t, Nat.le_refl _, by
      rw [show hw.t + (u - hw.t) = u by omega]; exact hu2⟩
    exact wait d hw hm hd1 hd2

/-- **C66.** A transfer of one word, on either port, returns the word the slave shifts out while the value is
shifted in, and sends exactly the value - whatever the receive FIFO held before. -/
theorem C66_transfer_exact (E : Env) (hroom : 0 < E.room) (p : Port) (val : Word) (hw : Hw)
    (hidle : Idle p hw) (k : Nat) (v : Word) (hw' : Hw) (h : transfer E p val k hw = some (v, hw')) :
    Done E p [val] hw [v] hw' := by
  have hd := drain_idle E p hw hidle
  have h0 : HInv E p ((hw.ssp p).wire ++ [val]) (hw.ssp p).wire.length (hw.ssp p).lost [] [val]
      ((drain E p hw).ssp p) := by
    rw [hd]
    have hi : (hw.ssp p).tx = [] := hidle
    exact ⟨by simp [hi], Nat.le_refl _, by simp, by simp, fun _ => rfl⟩
  have h1 := h0.writeDR (by
    rw [hd]
    have hi : (hw.ssp p).tx = [] := hidle
    show (hw.ssp p).tx.length < E.room
    rw [hi]; exact hroom)
  unfold transfer at h
  dsimp only at h
  cases hwt : waitIdle E p k (writeDR E p val (drain E p hw)) with
  | none => rw [hwt] at h; cases h
  | some hw1 =>
    rw [hwt] at h
    simp only [Option.map_some, Option.some.injEq] at h
    obtain ⟨rfl, rfl⟩ := Prod.mk.inj h
    obtain ⟨i1, i2⟩ := waitIdle_some hwt h1
    have hlost : (hw1.ssp p).lost = (hw.ssp p).lost := i1.short (by simp)
    have hlen : (hw1.ssp p).wire.length = (hw.ssp p).wire.length + 1 := by
      have := congrArg List.length i1.words
      simpa [i2] using this
    have hrx : (hw1.ssp p).rx ≠ [] := by
      intro h0
      have := i1.count
      rw [h0, hlost, hlen] at this
      simp at this
    have h2 := i1.readDR hrx
    have htx2 : ((readDR E p hw1).2.ssp p).tx = [] := by
      have := readDR_tx_le E p hw1
      rw [i2] at this
      exact List.length_eq_zero_iff.mp (by simpa using this)
    have hl2 : ((readDR E p hw1).2.ssp p).lost = (hw.ssp p).lost := h2.short (by simp)
    have hw2 := h2.words
    rw [htx2] at hw2
    simp only [List.append_nil] at hw2
    have hlen2 : ((readDR E p hw1).2.ssp p).wire.length - (hw.ssp p).wire.length = 1 := by
      rw [hw2]; simp
    have hc := h2.count
    rw [hl2, hlen2] at hc
    have hrx2 : ((readDR E p hw1).2.ssp p).rx = [] :=
      List.length_eq_zero_iff.mp (by simp at hc; omega)
    refine ⟨hw2, ?_, htx2, hrx2, hl2⟩
    have hs := h2.recv
    rw [hrx2, hlen2, List.append_nil] at hs
    have he := hs.eq_of_length (by rw [ans_length]; rfl)
    have : answers E p (sent p hw) [val] = ans E p ((hw.ssp p).wire ++ [val]) (hw.ssp p).wire.length 1 :=
      (ans_eq_answers E p _ [val]).symm
    rw [this]
    exact he

/-- **C66.** If the clock runs, a transfer of one word returns. -/
theorem C66_transfer_returns (E : Env) (p : Port) (hrun : Running E p) (val : Word) (hw : Hw) :
    ∃ k v hw', transfer E p val k hw = some (v, hw') := by
  obtain ⟨k, hw1, hk⟩ := waitIdle_returns hrun (writeDR E p val (drain E p hw))
  refine ⟨k, (readDR E p hw1).1, (readDR E p hw1).2, ?_⟩
  unfold transfer
  dsimp only
  rw [hk]; rfl

/-! ## The finished flag -/

theorem finished_snd (E : Env) (s : State) (h : s.finished = true → s.snd = []) :
    (continueBlock E s).finished = true → (continueBlock E s).snd = [] := by
  have hsend : ∀ m (s : State), (sendLoop E m s).finished = s.finished ∧ (s.snd = [] → sendLoop E m s = s) := by
    intro m
    induction m with
    | zero =>
      intro s
      unfold sendLoop
      split
      · exact ⟨rfl, fun _ => rfl⟩
      · rename_i h; dsimp only; split <;> exact ⟨rfl, fun h0 => by rw [h0] at h; cases h⟩
    | succ m ih =>
      intro s
      unfold sendLoop
      split
      · exact ⟨rfl, fun _ => rfl⟩
      · rename_i h
        dsimp only
        split
        · refine ⟨?_, fun h0 => by rw [h0] at h; cases h⟩
          rw [(ih _).1]
          unfold sendWord takeWord
          dsimp only
          split <;> rfl
        · exact ⟨rfl, fun h0 => by rw [h0] at h; cases h⟩
  have hrecv : ∀ f (s : State), (recvLoop E f s).finished = s.finished ∧ (recvLoop E f s).snd = s.snd := by
    intro f
    induction f with
    | zero => intro s; exact ⟨rfl, rfl⟩
    | succ f ih =>
      intro s
      unfold recvLoop
      split
      · dsimp only
        split
        · exact ih _
        · exact ⟨rfl, rfl⟩
      · exact ⟨rfl, rfl⟩
  unfold continueBlock
  dsimp only
  split
  · rename_i he; intro _; simpa using he
  · rw [(hrecv _ _).1, (hrecv _ _).2, (hsend _ _).1]
    intro hf
    rw [(hsend 8 s).2 (h hf)]
    exact h hf

/-- **C66.** When the flag `finished` of an asynchronous transfer is set, after whatever number of interrupts,
every word of the block is on the wire or in the transmit FIFO, in order. -/
theorem C66_finished (E : Env) (ws : List Word) (hw : Hw) (hidle : Idle .p0 hw) (m : Nat)
    (hfin : (transferAsync E .p0 ws m 0 hw).finished = true) :
    sent .p0 (transferAsync E .p0 ws m 0 hw).hw ++ ((transferAsync E .p0 ws m 0 hw).hw.ssp .p0).tx
      = sent .p0 hw ++ ws := by
  have h0 := startBlock_inv E ws hw hidle
  have h1 : BInv E ((hw.ssp .p0).wire ++ ws) (hw.ssp .p0).wire.length (hw.ssp .p0).lost ws.length
      { startBlock E .p0 ws hw with irq := true } := ⟨h0.port, h0.hw, h0.cnt⟩
  have h2 := (h1.irqs m).hw.words
  have hs : ∀ m (s : State), (s.finished = true → s.snd = []) →
      (irqs E m s).finished = true → (irqs E m s).snd = [] := by
    intro m
    induction m with
    | zero => intro s h; exact h
    | succ m ih =>
      intro s h
      unfold irqs
      refine ih _ ?_
      unfold irqHandler
      split
      · exact finished_snd E s h
      · exact h
  have h3 := hs m { startBlock E .p0 ws hw with irq := true }
    (finished_snd E ⟨.p0, ws, [], ws.length, false, false, drain E .p0 hw⟩ (fun h => by cases h)) hfin
  rw [h3, List.append_nil] at h2
  exact h2

/-! ## Settings -/

/-- Bits `lo` … `lo + n - 1` of a register. -/
def field (r : U32) (lo n : Nat) : U32 := (r >>> lo) &&& (BitVec.ofNat 32 (2 ^ n - 1))

theorem low4 (i : Nat) : (15#32).getLsbD i = decide (i < 4) := by
  by_cases h : i < 32
  · revert i; decide
  · rw [BitVec.getLsbD_of_ge _ _ (by omega)]; simp; omega

theorem low8 (i : Nat) : (255#32).getLsbD i = decide (i < 8) := by
  by_cases h : i < 32
  · revert i; decide
  · rw [BitVec.getLsbD_of_ge _ _ (by omega)]; simp; omega

theorem mid8 (i : Nat) : (0xff00#32).getLsbD i = decide (8 ≤ i ∧ i < 16) := by
  by_cases h : i < 32
  · revert i; decide
  · rw [BitVec.getLsbD_of_ge _ _ (by omega)]; simp; omega

theorem sub_one (n : Nat) (h : 1 ≤ n) : BitVec.ofNat 32 n - 1#32 = BitVec.ofNat 32 (n - 1) := by
  obtain ⟨m, rfl⟩ := Nat.exists_eq_add_of_le' h
  apply BitVec.eq_of_toNat_eq
  simp [BitVec.toNat_sub]
  omega

/-- **C66.** `setDataSize` sets the field DSS of CR0 (bits 0 - 3: size minus one) and changes nothing else;
`setClockDivider` sets the field SCR (bits 8 - 15: divider minus one) and changes nothing else. -/
theorem C66_settings (cr0 : U32) :
    (∀ size : Nat, 4 ≤ size → size ≤ 16 →
      field (setDataSize cr0 (.ofNat 32 size)) 0 4 = .ofNat 32 (size - 1) ∧
      ∀ i, 4 ≤ i → (setDataSize cr0 (.ofNat 32 size)).getLsbD i = cr0.getLsbD i) ∧
    (∀ div : Nat, 1 ≤ div → div ≤ 256 →
      field (setClockDivider cr0 (.ofNat 32 div)) 8 8 = .ofNat 32 (div - 1) ∧
      ∀ i, i < 8 ∨ 16 ≤ i → (setClockDivider cr0 (.ofNat 32 div)).getLsbD i = cr0.getLsbD i) := by
  constructor
  · intro size h1 h2
    unfold setDataSize field
    rw [sub_one size (by omega)]
    have hx : BitVec.ofNat 32 (size - 1) &&& 15#32 = BitVec.ofNat 32 (size - 1) := by
      have : ∀ n, n < 16 → BitVec.ofNat 32 n &&& 15#32 = BitVec.ofNat 32 n := by decide
      exact this _ (by omega)
    generalize BitVec.ofNat 32 (size - 1) = x at hx
    have hb : ∀ i, (x.getLsbD i && decide (i < 4)) = x.getLsbD i := by
      intro i; rw [← low4, ← BitVec.getLsbD_and, hx]
    rw [hx]
    constructor
    · apply BitVec.eq_of_getLsbD_eq
      intro i hi
      simp only [BitVec.getLsbD_and, BitVec.getLsbD_or, BitVec.getLsbD_ushiftRight, BitVec.getLsbD_not, Nat.zero_add,
        show (2 ^ 4 - 1) = 15 from rfl, low4]
      have := hb i
      by_cases h4 : i < 4 <;> simp [h4] at this ⊢
      exact this
    · intro i h4
      simp only [BitVec.getLsbD_and, BitVec.getLsbD_or, BitVec.getLsbD_not, low4]
      have := hb i
      by_cases h32 : i < 32
      · have h4' : ¬ i < 4 := by omega
        simp [h4', h32] at this ⊢
        simp [this]
      · rw [BitVec.getLsbD_of_ge cr0 i (by omega), BitVec.getLsbD_of_ge x i (by omega)]; simp
  · intro div h1 h2
    unfold setClockDivider field
    rw [sub_one div (by omega)]
    have hx : BitVec.ofNat 32 (div - 1) &&& 255#32 = BitVec.ofNat 32 (div - 1) := by
      have : ∀ n, n < 256 → BitVec.ofNat 32 n &&& 255#32 = BitVec.ofNat 32 n := by decide +kernel
      exact this _ (by omega)
    generalize BitVec.ofNat 32 (div - 1) = x at hx
    have hb : ∀ i, (x.getLsbD i && decide (i < 8)) = x.getLsbD i := by
      intro i; rw [← low8, ← BitVec.getLsbD_and, hx]
    rw [hx]
    constructor
    · apply BitVec.eq_of_getLsbD_eq
      intro i hi
      simp only [BitVec.getLsbD_and, BitVec.getLsbD_or, BitVec.getLsbD_ushiftRight, BitVec.getLsbD_not,
        BitVec.getLsbD_shiftLeft, show (2 ^ 8 - 1) = 255 from rfl, low8, mid8]
      have := hb i
      by_cases h8 : i < 8
      · have : 8 + i < 32 := by omega
        have h16 : 8 + i < 16 := by omega
        simp [h8, this, h16]
      · simp [h8] at this ⊢
        exact this
    · intro i hi
      simp only [BitVec.getLsbD_and, BitVec.getLsbD_or, BitVec.getLsbD_not, BitVec.getLsbD_shiftLeft, mid8]
      by_cases h32 : i < 32
      · rcases hi with hi | hi
        · have : ¬ 8 ≤ i := by omega
          simp [h32, hi, this]
        · have h16 : ¬ i < 16 := by omega
          have := hb (i - 8)
          have h8 : ¬ (i - 8 < 8) := by omega
          simp [h8] at this
          have h8' : ¬ i < 8 := by omega
          simp [h32, h16, this]
      · rw [BitVec.getLsbD_of_ge cr0 i (by omega)]; simp [h32]

/-! ## Witnesses -/

/-- An environment: the slave answers the `i`-th frame with `100 + i`; frames complete as `ticks` says. -/
def exampleEnv (ticks : Nat → Nat) : Env := ⟨fun _ => ticks, fun _ l => BitVec.ofNat 16 (100 + l.length), 9⟩

def idleHw : Hw := ⟨fun _ => ⟨[], [], [], 0⟩, 0⟩

def nineWords : List Word := [1#16, 2#16, 3#16, 4#16, 5#16, 6#16, 7#16, 8#16, 9#16]

/-- **C66, finding.** Overruns happen: if the program is held up (by an interrupt, say) between filling the
FIFO and reading the received words, a transfer of 9 words never returns, although the clock runs. -/
theorem C66_overrun_possible : ∃ E : Env, 0 < E.room ∧ Running E .p0 ∧
    ∀ k, ¬ Returned (transferBlock E .p0 nineWords k idleHw) := by
  refine ⟨exampleEnv (fun t => if t < 39 then 0 else 9), by decide, ?_, ?_⟩
  · intro t
    refine ⟨t + 39, by omega, ?_⟩
    show 0 < (if t + 39 < 39 then 0 else 9)
    rw [if_neg (by omega)]; omega
  · intro k
    exact C66_overrun_hangs _ nineWords idleHw rfl 1 (by decide +kernel) k

/- Cases that meet the hypotheses: 9 words with a frame every third access, from an idle port. -/
example : Idle .p0 idleHw ∧
    Returned (transferBlock (exampleEnv (fun t => if t % 3 = 0 then 1 else 0)) .p0 nineWords 5 idleHw) ∧
    (transferBlock (exampleEnv (fun t => if t % 3 = 0 then 1 else 0)) .p0 nineWords 5 idleHw).got
      = [100#16, 101#16, 102#16, 103#16, 104#16, 105#16, 106#16, 107#16, 108#16] := by
  refine ⟨rfl, ?_, ?_⟩ <;> decide +kernel

example : Returned (transferAsync (exampleEnv (fun t => if t % 3 = 0 then 1 else 0)) .p0 nineWords 2 5 idleHw) ∧
    (transferAsync (exampleEnv (fun t => if t % 3 = 0 then 1 else 0)) .p0 nineWords 2 0 idleHw).finished = true := by
  constructor <;> decide +kernel

example : Running (exampleEnv (fun t => if t % 3 = 0 then 1 else 0)) .p0 := by
  intro t
  refine ⟨3 * t, by omega, ?_⟩
  show 0 < (if 3 * t % 3 = 0 then 1 else 0)
  rw [if_pos (by omega)]; omega

example : (transfer (exampleEnv (fun t => if t % 3 = 0 then 1 else 0)) .p1 42#16 9 idleHw).map (·.1) = some 100#16 := by
  decide +kernel

/- The flag `finished` does not mean that every word has been received. -/
example : (transferAsync (exampleEnv (fun t => if t % 8 = 0 then 1 else 0)) .p0 nineWords 2 0 idleHw).finished = true ∧
    (transferAsync (exampleEnv (fun t => if t % 8 = 0 then 1 else 0)) .p0 nineWords 2 0 idleHw).got.length ≠ 9 := by
  constructor <;> decide +kernel

end Verif.Spi
