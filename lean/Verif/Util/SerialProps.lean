import Verif.Util.Serial

/-!
# C34: the serial port delivers bytes in order, exactly once, under every interleaving

Specification, over a schedule (events) and its observable outputs:
* transmit: what `write` was called with, and what went out on the wire;
* receive: what arrived at the pin, what `read` returned, what was thrown away.
-/

namespace Verif.Serial

/-- Bytes sent on the wire. -/
def wireOf (o : List Out) : List Byte := o.filterMap fun | .wire b => some b | _ => none
/-- Bytes returned by `read`. -/
def gotOf (o : List Out) : List Byte := o.filterMap fun | .got (some b) => some b | _ => none
/-- Bytes lost in reception. -/
def lostOf (o : List Out) : List Byte := o.filterMap fun | .dropped b => some b | .overrun b => some b | _ => none
/-- Bytes that arrived. -/
def arrivedOf (es : List Ev) : List Byte := es.filterMap fun | .arrive b => some b | _ => none

/-- Content of a ring buffer. -/
def ring (buf : Nat → Byte) (h t : Nat) : List Byte :=
  (List.range ((t + 128 - h) % 128)).map fun i => buf ((h + i) % 128)

/-- Bytes waiting to be sent, oldest first. -/
def txQueue (s : St) : List Byte := ring s.writeBuffer s.writeHead s.writeTail
/-- Bytes received and not yet read, oldest first. (`% 128`: while `readHead` is being advanced it is 128 for a moment.) -/
def rxQueue (s : St) : List Byte := ring s.readBuffer (s.readHead % 128) s.readTail

theorem ring_length (buf : Nat → Byte) (h t : Nat) : (ring buf h t).length = (t + 128 - h) % 128 := by simp [ring]

theorem ring_empty (buf : Nat → Byte) (h : Nat) (hh : h < 128) : ring buf h h = [] := by
  unfold ring
  rw [show (h + 128 - h) % 128 = 0 by omega]
  rfl

theorem ring_push (buf : Nat → Byte) (h t : Nat) (b : Byte) (hh : h < 128) (ht : t < 128) (hf : (t + 1) % 128 ≠ h) :
    ring (upd buf t b) h ((t + 1) % 128) = ring buf h t ++ [b] := by
  unfold ring
  have e : ((t + 1) % 128 + 128 - h) % 128 = (t + 128 - h) % 128 + 1 := by omega
  rw [e, List.range_succ, List.map_append]
  congr 1
  · apply List.map_congr_left
    intro i hi
    rw [List.mem_range] at hi
    unfold upd
    rw [if_neg (by omega)]
  · simp only [List.map_cons, List.map_nil]
    unfold upd
    rw [if_pos (by omega)]

theorem ring_pop (buf : Nat → Byte) (h t : Nat) (hh : h < 128) (ht : t < 128) (hne : h ≠ t) :
    ring buf h t = buf h :: ring buf ((h + 1) % 128) t := by
  unfold ring
  have e : (t + 128 - h) % 128 = (t + 128 - (h + 1) % 128) % 128 + 1 := by omega
  rw [e, List.range_succ_eq_map, List.map_cons, List.map_map]
  congr 1
  · simp only [Nat.add_zero]
    rw [Nat.mod_eq_of_lt hh]
  · apply List.map_congr_left
    intro i _
    simp only [Function.comp]
    congr 1
    omega

theorem ring_upd_tail (buf : Nat → Byte) (h t : Nat) (b : Byte) (hh : h < 128) (ht : t < 128) :
    ring (upd buf t b) h t = ring buf h t := by
  unfold ring
  apply List.map_congr_left
  intro i hi
  rw [List.mem_range] at hi
  unfold upd
  rw [if_neg (by omega)]

/-! ## transmit side -/

/-- The byte `write` has been called with and has not yet handed over. -/
def pendingTx : Pc → List Byte
  | .wLsr ch | .wDirect ch | .wWait ch _ | .wStore ch _ | .wTail ch _ => [ch]
  | _ => []

/-- Everything accepted and not yet on the wire, oldest first. -/
def backlog (s : St) : List Byte := s.thr.toList ++ txQueue s ++ pendingTx s.pc

/-- Is the main program between a hand-over and enabling the interrupt? -/
def aboutToEnable : Pc → Bool
  | .wIer => true
  | _ => false

/-- Invariant of the transmit side. -/
structure TxInv (s : St) : Prop where
  h1 : s.writeHead < 128
  h2 : s.writeTail < 128
  hlsr : ∀ ch, s.pc = .wLsr ch → s.writeHead = s.writeTail
  hdir : ∀ ch, s.pc = .wDirect ch → s.writeHead = s.writeTail ∧ s.thr = none
  hwait : ∀ ch n, s.pc = .wWait ch n → n = (s.writeTail + 1) % 128
  hstore : ∀ ch n, s.pc = .wStore ch n → n = (s.writeTail + 1) % 128 ∧ s.writeHead ≠ n
  htail : ∀ ch n, s.pc = .wTail ch n → n = (s.writeTail + 1) % 128 ∧ s.writeHead ≠ n ∧ s.writeBuffer s.writeTail = ch
  hier : s.writeHead ≠ s.writeTail → s.ierThre = true ∨ s.pc = .wIer

theorem handlerRx_tx (bs : List Byte) (s : St) :
    (handlerRx bs s).1.writeHead = s.writeHead ∧ (handlerRx bs s).1.writeTail = s.writeTail ∧
    (handlerRx bs s).1.writeBuffer = s.writeBuffer ∧ (handlerRx bs s).1.thr = s.thr ∧
    (handlerRx bs s).1.ierThre = s.ierThre ∧ (handlerRx bs s).1.pc = s.pc ∧ wireOf (handlerRx bs s).2 = [] := by
  induction bs generalizing s with
  | nil => exact ⟨rfl, rfl, rfl, rfl, rfl, rfl, rfl⟩
  | cons b bs ih =>
    unfold handlerRx
    split
    · obtain ⟨a, b', c, d, e, f, g⟩ := ih s
      exact ⟨a, b', c, d, e, f, by simpa [wireOf] using g⟩
    · exact ih _

/-- The transmit part of the handler keeps the backlog and the invariant. -/
theorem handlerTx_inv (s : St) (h : TxInv s) : TxInv (handlerTx s) ∧ backlog (handlerTx s) = backlog s ∧
    (handlerTx s).pc = s.pc := by
  unfold handlerTx
  by_cases ht : s.thr.isNone = true
  · rw [if_pos ht]
    have hthr : s.thr = none := by simpa using ht
    by_cases he : s.writeHead = s.writeTail
    · rw [if_pos he]
      refine ⟨⟨h.h1, h.h2, h.hlsr, h.hdir, h.hwait, h.hstore, h.htail, fun hn => absurd he hn⟩, rfl, rfl⟩
    · rw [if_neg he]
      have h1 := h.h1
      have h2 := h.h2
      refine ⟨⟨by show (s.writeHead + 1) % BUFFER_SIZE < 128; simp only [BUFFER_SIZE]; omega, h.h2, ?_, ?_, h.hwait, ?_, ?_, ?_⟩, ?_, rfl⟩
      · intro ch hp; exact absurd (h.hlsr ch hp) he
      · intro ch hp; exact absurd (h.hdir ch hp).1 he
      · intro ch n hp
        obtain ⟨a, b⟩ := h.hstore ch n hp
        refine ⟨a, ?_⟩
        show (s.writeHead + 1) % BUFFER_SIZE ≠ n
        simp only [BUFFER_SIZE]
        omega
      · intro ch n hp
        obtain ⟨a, b, c⟩ := h.htail ch n hp
        refine ⟨a, ?_, c⟩
        show (s.writeHead + 1) % BUFFER_SIZE ≠ n
        simp only [BUFFER_SIZE]
        omega
      · intro _; exact h.hier he
      · show (some (s.writeBuffer s.writeHead)).toList ++ ring s.writeBuffer ((s.writeHead + 1) % BUFFER_SIZE) s.writeTail ++
            pendingTx s.pc = s.thr.toList ++ ring s.writeBuffer s.writeHead s.writeTail ++ pendingTx s.pc
        rw [hthr, ring_pop s.writeBuffer s.writeHead s.writeTail h.h1 h.h2 he]
        rfl
  · rw [if_neg ht]
    exact ⟨h, rfl, rfl⟩

theorem handler_tx (s : St) (h : TxInv s) :
    TxInv (handler s).1 ∧ backlog (handler s).1 = backlog s ∧ wireOf (handler s).2 = [] ∧ (handler s).1.pc = s.pc := by
  obtain ⟨i1, i2, i3⟩ := handlerTx_inv s h
  unfold handler
  dsimp only
  obtain ⟨a, b, c, d, e, f, g⟩ := handlerRx_tx (handlerTx s).fifo (handlerTx s)
  refine ⟨⟨by rw [a]; exact i1.h1, by rw [b]; exact i1.h2, ?_, ?_, ?_, ?_, ?_, ?_⟩, ?_, g, f.trans i3⟩
  · intro ch; rw [f, a, b]; exact i1.hlsr ch
  · intro ch; rw [f, a, b, d]; exact i1.hdir ch
  · intro ch n; rw [f, b]; exact i1.hwait ch n
  · intro ch n; rw [f, a, b]; exact i1.hstore ch n
  · intro ch n; rw [f, a, b, c]; exact i1.htail ch n
  · rw [a, b, e, f]; exact i1.hier
  · rw [← i2]
    unfold backlog txQueue
    rw [a, b, c, d, f]

/-- The byte a call event hands to `write`, if the call takes place. -/
def calledBy (s : St) : Ev → List Byte
  | .callWrite ch => if s.pc = .idle then [ch] else []
  | _ => []

/-- Bytes `write` has been called with during a run. -/
def calledOf : List Ev → St → List Byte
  | [], _ => []
  | e :: es, s => calledBy s e ++ calledOf es (step s e).1

theorem txInv_congr {s t : St} (h : TxInv s) (e1 : t.writeHead = s.writeHead) (e2 : t.writeTail = s.writeTail)
    (e3 : t.writeBuffer = s.writeBuffer) (e4 : t.thr = s.thr) (e5 : t.ierThre = s.ierThre)
    (hp : ∀ p, t.pc = p → pendingTx p = [] ∧ p ≠ .wIer) (hs : pendingTx s.pc = [] ∧ s.pc ≠ .wIer) :
    TxInv t ∧ backlog t = backlog s := by
  have hp' := hp t.pc rfl
  refine ⟨⟨by rw [e1]; exact h.h1, by rw [e2]; exact h.h2, ?_, ?_, ?_, ?_, ?_, ?_⟩, ?_⟩
  · intro ch hh; rw [hh] at hp'; simp [pendingTx] at hp'
  · intro ch hh; rw [hh] at hp'; simp [pendingTx] at hp'
  · intro ch n hh; rw [hh] at hp'; simp [pendingTx] at hp'
  · intro ch n hh; rw [hh] at hp'; simp [pendingTx] at hp'
  · intro ch n hh; rw [hh] at hp'; simp [pendingTx] at hp'
  · intro hne
    rw [e1, e2] at hne
    rcases h.hier hne with q | q
    · left; rw [e5]; exact q
    · exact absurd q hs.2
  · unfold backlog txQueue
    rw [e1, e2, e3, e4, hp'.1, hs.1]

theorem tx_same {s t : St} {o : List Out} (h : TxInv s) (ho : wireOf o = []) (e1 : t.writeHead = s.writeHead)
    (e2 : t.writeTail = s.writeTail)
    (e3 : t.writeBuffer = s.writeBuffer) (e4 : t.thr = s.thr) (e5 : t.ierThre = s.ierThre)
    (hp : pendingTx t.pc = [] ∧ t.pc ≠ .wIer) (hs : pendingTx s.pc = [] ∧ s.pc ≠ .wIer) :
    TxInv t ∧ wireOf o ++ backlog t = backlog s := by
  obtain ⟨a, b⟩ := txInv_congr h e1 e2 e3 e4 e5 (fun p hp' => by rw [← hp']; exact hp) hs
  exact ⟨a, by rw [ho, b]; rfl⟩

/-- One step: what goes out on the wire and what stays behind is what was behind before plus what is newly handed in. -/
theorem step_tx (s : St) (e : Ev) (h : TxInv s) :
    TxInv (step s e).1 ∧ wireOf (step s e).2 ++ backlog (step s e).1 = backlog s ++ calledBy s e := by
  have h1 := h.h1
  have h2 := h.h2
  cases e with
  | callWrite ch =>
    simp only [step, calledBy]
    by_cases hp : s.pc = .idle
    · rw [if_pos hp, hp]
      dsimp only
      have hb : backlog s = s.thr.toList ++ txQueue s := by unfold backlog; rw [hp]; simp [pendingTx]
      rw [hb]
      have hi : s.writeHead ≠ s.writeTail → s.ierThre = true := fun hn => by
        rcases h.hier hn with q | q
        · exact q
        · rw [hp] at q; cases q
      by_cases he : s.writeHead = s.writeTail
      · rw [if_pos he]
        refine ⟨⟨h1, h2, fun _ _ => he, ?_, ?_, ?_, ?_, fun hn => absurd he hn⟩, rfl⟩
        all_goals intros; simp_all
      · rw [if_neg he]
        refine ⟨⟨h1, h2, ?_, ?_, ?_, ?_, ?_, fun hn => Or.inl (hi hn)⟩, rfl⟩
        · intro c hc; simp at hc
        · intro c hc; simp at hc
        · intro c n hc; simp at hc; exact hc.2.symm
        · intro c n hc; simp at hc
        · intro c n hc; simp at hc
    · rw [if_neg hp, List.append_nil]
      cases hp' : s.pc <;> simp_all [wireOf]
  | callRead =>
    simp only [step, calledBy]
    rw [List.append_nil]
    cases hp : s.pc
    case idle =>
      dsimp only
      obtain ⟨q1, q2⟩ := txInv_congr (s := s) (t := { s with pc := .rCheck (readBufferFull s) }) h rfl rfl rfl rfl rfl
        (by intro p hp'; subst hp'; simp [pendingTx]) (by rw [hp]; simp [pendingTx])
      exact ⟨q1, by rw [q2]; rfl⟩
    all_goals exact ⟨h, rfl⟩
  | irq =>
    simp only [step, calledBy]
    obtain ⟨a, b, c, -⟩ := handler_tx s h
    exact ⟨a, by rw [b, c, List.append_nil]; rfl⟩
  | shift =>
    simp only [step, calledBy]
    rw [List.append_nil]
    cases ht : s.thr with
    | none => exact ⟨h, rfl⟩
    | some b =>
      dsimp only
      refine ⟨⟨h1, h2, h.hlsr, ?_, h.hwait, h.hstore, h.htail, h.hier⟩, ?_⟩
      · intro ch hp
        exact ⟨(h.hdir ch hp).1, rfl⟩
      · unfold backlog
        rw [ht]
        rfl
  | arrive b =>
    simp only [step, calledBy]
    rw [List.append_nil]
    split
    · exact ⟨⟨h1, h2, h.hlsr, h.hdir, h.hwait, h.hstore, h.htail, h.hier⟩, rfl⟩
    · exact ⟨h, rfl⟩
  | main =>
    show TxInv (mainStep s).1 ∧ wireOf (mainStep s).2 ++ backlog (mainStep s).1 = backlog s ++ []
    rw [List.append_nil]
    unfold mainStep
    cases hp : s.pc with
    | idle => exact ⟨h, rfl⟩
    | wLsr ch =>
      dsimp only
      have he := h.hlsr ch hp
      split
      · rename_i ht
        refine ⟨⟨h1, h2, ?_, ?_, ?_, ?_, ?_, fun hn => absurd he hn⟩, ?_⟩
        · intro c hc; simp at hc
        · intro c hc; exact ⟨he, by simpa using ht⟩
        · intro c n hc; simp at hc
        · intro c n hc; simp at hc
        · intro c n hc; simp at hc
        · unfold backlog; rw [hp]; rfl
      · refine ⟨⟨h1, h2, ?_, ?_, ?_, ?_, ?_, fun hn => absurd he hn⟩, ?_⟩
        · intro c hc; simp at hc
        · intro c hc; simp at hc
        · intro c n hc; simp at hc; exact hc.2.symm
        · intro c n hc; simp at hc
        · intro c n hc; simp at hc
        · unfold backlog; rw [hp]; rfl
    | wDirect ch =>
      dsimp only
      obtain ⟨he, ht⟩ := h.hdir ch hp
      refine ⟨⟨h1, h2, ?_, ?_, ?_, ?_, ?_, fun hn => absurd he hn⟩, ?_⟩
      · intro c hc; simp at hc
      · intro c hc; simp at hc
      · intro c n hc; simp at hc
      · intro c n hc; simp at hc
      · intro c n hc; simp at hc
      · unfold backlog txQueue
        rw [hp, ht]
        show [ch] ++ ring s.writeBuffer s.writeHead s.writeTail ++ [] = [] ++ ring s.writeBuffer s.writeHead s.writeTail ++ [ch]
        rw [he, ring_empty _ _ h2]
        rfl
    | wIer =>
      dsimp only
      refine ⟨⟨h1, h2, ?_, ?_, ?_, ?_, ?_, fun _ => Or.inl rfl⟩, ?_⟩
      · intro c hc; simp at hc
      · intro c hc; simp at hc
      · intro c n hc; simp at hc
      · intro c n hc; simp at hc
      · intro c n hc; simp at hc
      · unfold backlog; rw [hp]; rfl
    | wWait ch n =>
      dsimp only
      have hn := h.hwait ch n hp
      split
      · exact ⟨h, rfl⟩
      · rename_i hne
        refine ⟨⟨h1, h2, ?_, ?_, ?_, ?_, ?_, ?_⟩, ?_⟩
        · intro c hc; simp at hc
        · intro c hc; simp at hc
        · intro c n hc; simp at hc
        · intro c m hc; simp at hc; obtain ⟨-, rfl⟩ := hc; exact ⟨hn, hne⟩
        · intro c n hc; simp at hc
        · intro hq
          rcases h.hier hq with q | q
          · exact Or.inl q
          · rw [hp] at q; cases q
        · unfold backlog; rw [hp]; rfl
    | wStore ch n =>
      dsimp only
      obtain ⟨hn, hne⟩ := h.hstore ch n hp
      refine ⟨⟨h1, h2, ?_, ?_, ?_, ?_, ?_, ?_⟩, ?_⟩
      · intro c hc; simp at hc
      · intro c hc; simp at hc
      · intro c n hc; simp at hc
      · intro c n hc; simp at hc
      · intro c m hc
        simp at hc
        obtain ⟨rfl, rfl⟩ := hc
        exact ⟨hn, hne, by simp [upd]⟩
      · intro hq
        rcases h.hier hq with q | q
        · exact Or.inl q
        · rw [hp] at q; cases q
      · unfold backlog txQueue
        rw [hp]
        show [] ++ (s.thr.toList ++ ring (upd s.writeBuffer s.writeTail ch) s.writeHead s.writeTail ++ [ch]) = _
        rw [ring_upd_tail _ _ _ _ h1 h2]
        rfl
    | wTail ch n =>
      dsimp only
      obtain ⟨hn, hne, hb⟩ := h.htail ch n hp
      refine ⟨⟨h1, by show n < 128; omega, ?_, ?_, ?_, ?_, ?_, fun _ => Or.inr rfl⟩, ?_⟩
      · intro c hc; simp at hc
      · intro c hc; simp at hc
      · intro c n hc; simp at hc
      · intro c n hc; simp at hc
      · intro c n hc; simp at hc
      · unfold backlog txQueue
        rw [hp]
        show [] ++ (s.thr.toList ++ ring s.writeBuffer s.writeHead n ++ []) =
          s.thr.toList ++ ring s.writeBuffer s.writeHead s.writeTail ++ [ch]
        have hu : upd s.writeBuffer s.writeTail ch = s.writeBuffer := by
          funext j
          unfold upd
          split
          · rename_i hj; rw [hj, hb]
          · rfl
        have := ring_push s.writeBuffer s.writeHead s.writeTail ch h1 h2 (by rw [← hn]; exact fun q => hne q.symm)
        rw [hu, ← hn] at this
        rw [this]
        simp
    | rCheck full =>
      dsimp only
      split
      all_goals
        exact tx_same h rfl rfl rfl rfl rfl rfl (by simp [pendingTx]) (by rw [hp]; simp [pendingTx])
    | rFetch full =>
      exact tx_same h rfl rfl rfl rfl rfl rfl (by simp [pendingTx]) (by rw [hp]; simp [pendingTx])
    | rInc full ch =>
      exact tx_same h rfl rfl rfl rfl rfl rfl (by simp [pendingTx]) (by rw [hp]; simp [pendingTx])
    | rMask full ch =>
      exact tx_same h rfl rfl rfl rfl rfl rfl (by simp [pendingTx]) (by rw [hp]; simp [pendingTx])
    | rPost full ch =>
      dsimp only
      have hidle := txInv_congr (s := s) (t := { s with pc := .idle }) h rfl rfl rfl rfl rfl
        (by intro p hp'; subst hp'; simp [pendingTx]) (by rw [hp]; simp [pendingTx])
      split
      · obtain ⟨a, b, c, -⟩ := handler_tx _ hidle.1
        refine ⟨a, ?_⟩
        rw [b, hidle.2]
        unfold wireOf at c ⊢
        rw [List.filterMap_append, c]
        rfl
      · refine ⟨hidle.1, ?_⟩
        rw [hidle.2]
        rfl

theorem wireOf_append (a b : List Out) : wireOf (a ++ b) = wireOf a ++ wireOf b := List.filterMap_append

theorem run_tx (es : List Ev) : ∀ s, TxInv s →
    TxInv (run es s).1 ∧ wireOf (run es s).2 ++ backlog (run es s).1 = backlog s ++ calledOf es s := by
  induction es with
  | nil => intro s h; exact ⟨h, by simp [run, wireOf, calledOf]⟩
  | cons e es ih =>
    intro s h
    obtain ⟨a, b⟩ := step_tx s e h
    obtain ⟨c, d⟩ := ih _ a
    refine ⟨c, ?_⟩
    show wireOf ((step s e).2 ++ (run es (step s e).1).2) ++ backlog (run es (step s e).1).1 = backlog s ++ (calledBy s e ++ calledOf es (step s e).1)
    rw [wireOf_append, List.append_assoc, d, ← List.append_assoc, b, List.append_assoc]

theorem init_tx (rb wb : Nat → Byte) : TxInv (init rb wb) ∧ backlog (init rb wb) = [] := by
  refine ⟨⟨by show 0 < 128; omega, by show 0 < 128; omega, ?_, ?_, ?_, ?_, ?_, fun h => absurd rfl h⟩, ?_⟩
  case refine_6 => simp [backlog, txQueue, init, ring, pendingTx]
  all_goals intros; simp_all [init]

/-- **C34 (transmit).** Under every interleaving of the main program, the interrupt handler and the UART, the bytes
that have gone out on the wire, followed by the bytes still held back, are exactly the bytes `write` was
called with, in the order of the calls. So nothing is lost, duplicated, reordered or invented; at
most 127 bytes in the buffer, one in the UART and one in a running call are held back. -/
theorem C34_transmit_fifo (rb wb : Nat → Byte) (es : List Ev) :
    ∃ held, wireOf (run es (init rb wb)).2 ++ held = calledOf es (init rb wb) ∧ held.length ≤ 129 := by
  obtain ⟨a, b⟩ := run_tx es _ (init_tx rb wb).1
  rw [(init_tx rb wb).2, List.nil_append] at b
  refine ⟨_, b, ?_⟩
  unfold backlog txQueue
  have h1 : ∀ o : Option Byte, o.toList.length ≤ 1 := by intro o; cases o <;> simp
  have h2 : ∀ p : Pc, (pendingTx p).length ≤ 1 := by intro p; cases p <;> simp [pendingTx]
  simp only [List.length_append, ring_length]
  have h3 := h1 (run es (init rb wb)).1.thr
  have h4 := h2 (run es (init rb wb)).1.pc
  have h5 : ∀ x, x % 128 < 128 := fun x => Nat.mod_lt _ (by omega)
  have h6 := h5 ((run es (init rb wb)).1.writeTail + 128 - (run es (init rb wb)).1.writeHead)
  omega

/-- Draining: the handler runs when the holding register is empty and the UART sends, `n` times. -/
def drain : Nat → List Ev
  | 0 => []
  | n + 1 => .irq :: .shift :: drain n

theorem calledOf_drain (n : Nat) : ∀ s, calledOf (drain n) s = [] := by
  induction n with
  | zero => intro s; rfl
  | succ n ih => intro s; show [] ++ ([] ++ calledOf (drain n) _) = []; rw [ih]; rfl

theorem step_shift_pc (s : St) : (step s .shift).1.pc = s.pc := by
  simp only [step]
  cases s.thr <;> rfl

/-- After the handler has run in an idle system there is something to send, or nothing is left. -/
theorem handler_loads (s : St) (h : TxInv s) (hp : s.pc = .idle) :
    (handler s).1.thr ≠ none ∨ backlog (handler s).1 = [] := by
  obtain ⟨-, -, -, hthr, -⟩ := handlerRx_tx (handlerTx s).fifo (handlerTx s)
  have hb := (handler_tx s h).2.1
  cases ht : (handler s).1.thr with
  | some b => exact Or.inl (by simp)
  | none =>
    right
    rw [hb]
    have e : (handler s).1.thr = (handlerTx s).thr := hthr
    rw [ht] at e
    unfold handlerTx at e
    by_cases hn : s.thr.isNone = true
    · rw [if_pos hn] at e
      by_cases hq : s.writeHead = s.writeTail
      · unfold backlog txQueue
        have : s.thr = none := by simpa using hn
        rw [this, hp, hq, ring_empty _ _ h.h2]
        rfl
      · rw [if_neg hq] at e; cases e
    · rw [if_neg hn] at e
      rw [← e] at hn
      exact absurd rfl hn

theorem drain_empties (n : Nat) : ∀ s, TxInv s → s.pc = .idle → (backlog s).length ≤ n →
    backlog (run (drain n) s).1 = [] := by
  induction n with
  | zero =>
    intro s _ _ h
    exact List.length_eq_zero_iff.mp (by simpa [run, drain] using h)
  | succ n ih =>
    intro s hi hp h
    obtain ⟨a1, b1, c1, d1⟩ := handler_tx s hi
    obtain ⟨a2, b2⟩ := step_tx (handler s).1 .shift a1
    have hp2 : (step (handler s).1 .shift).1.pc = .idle := by rw [step_shift_pc, d1, hp]
    refine ih _ a2 hp2 ?_
    show (backlog (step (handler s).1 .shift).1).length ≤ n
    have hl := congrArg List.length b2
    rw [List.length_append, b1, List.length_append] at hl
    have hcalled : (calledBy (handler s).1 .shift).length = 0 := rfl
    rcases handler_loads s hi hp with q | q
    · have hw : (wireOf (step (handler s).1 .shift).2).length = 1 := by
        simp only [step]
        cases hc : (handler s).1.thr with
        | none => exact absurd hc q
        | some b => rfl
      omega
    · rw [b1] at q
      rw [q] at hl
      simp only [List.length_nil] at hl
      omega

/-- **C34 (transmit).** Bytes are not stuck: whenever the main program is outside `write` and bytes are waiting in the
buffer, the transmit interrupt is enabled; and after every history that ends outside a call, 129 rounds
of interrupt and UART put every byte ever handed to `write` on the wire. -/
theorem C34_transmit_completes (rb wb : Nat → Byte) (es : List Ev) (hidle : (run es (init rb wb)).1.pc = .idle) :
    ((run es (init rb wb)).1.writeHead ≠ (run es (init rb wb)).1.writeTail → (run es (init rb wb)).1.ierThre = true) ∧
    wireOf (run es (init rb wb)).2 ++ wireOf (run (drain 129) (run es (init rb wb)).1).2 = calledOf es (init rb wb) := by
  obtain ⟨a, b⟩ := run_tx es _ (init_tx rb wb).1
  rw [(init_tx rb wb).2, List.nil_append] at b
  constructor
  · intro hne
    rcases a.hier hne with q | q
    · exact q
    · rw [hidle] at q; cases q
  · obtain ⟨held, h1, h2⟩ := C34_transmit_fifo rb wb es
    have hb : backlog (run es (init rb wb)).1 = held := by
      rw [← h1] at b; exact List.append_cancel_left b
    have hd := drain_empties 129 _ a hidle (by rw [hb]; exact h2)
    obtain ⟨-, e⟩ := run_tx (drain 129) _ a
    rw [hd, calledOf_drain, List.append_nil, List.append_nil] at e
    rw [e, b]

/-- Non-vacuity: two writes, the first goes straight to the UART, the second through the buffer. -/
def demoWrite : List Ev :=
  [.callWrite 0x41#8, .main, .main, .main, .callWrite 0x42#8, .main, .main, .main, .irq, .main, .main, .shift, .irq, .shift]

example : (run demoWrite (init (fun _ => 0#8) (fun _ => 0#8))).2 = [.wrote, .wrote, .wire 0x41#8, .wire 0x42#8] ∧
    calledOf demoWrite (init (fun _ => 0#8) (fun _ => 0#8)) = [0x41#8, 0x42#8] ∧
    (run demoWrite (init (fun _ => 0#8) (fun _ => 0#8))).1.pc = .idle := by decide +kernel

/-! ## receive side -/

/-- The byte `read` has taken out and not yet returned. -/
def pendingRx : Pc → List Byte
  | .rMask _ ch => [ch]
  | .rPost _ (some ch) => [ch]
  | _ => []

/-- Everything received and not yet returned, oldest first. -/
def unread (s : St) : List Byte := pendingRx s.pc ++ rxQueue s ++ s.fifo

/-- Invariant of the receive side. -/
structure RxInv (s : St) : Prop where
  ht : s.readTail < 128
  hh : (∀ f c, s.pc ≠ .rMask f c) → s.readHead < 128
  hm : ∀ f c, s.pc = .rMask f c → 1 ≤ s.readHead ∧ s.readHead ≤ 128
  hf : ∀ f, s.pc = .rFetch f → s.readTail ≠ s.readHead
  hi : ∀ f c, s.pc = .rInc f c → s.readTail ≠ s.readHead ∧ c = s.readBuffer s.readHead

/-- A handler run is harmless if it does not hit the middle of `++readHead; readHead &= MASK` with more bytes in the
FIFO than there is room for. -/
def Harmless (s : St) : Prop := s.readHead < 128 ∨ (rxQueue s).length + s.fifo.length ≤ 127

theorem handlerRx_inv (bs : List Byte) : ∀ s, s.readTail < 128 → s.readHead ≤ 128 →
    (s.readHead < 128 ∨ (rxQueue s).length + bs.length ≤ 127) →
    (handlerRx bs s).1.readTail < 128 ∧ (handlerRx bs s).1.readHead = s.readHead ∧ (handlerRx bs s).1.pc = s.pc ∧
    (handlerRx bs s).1.fifo = [] ∧
    gotOf (handlerRx bs s).2 = [] ∧
    (∃ kept, rxQueue (handlerRx bs s).1 = rxQueue s ++ kept ∧ kept.Sublist bs ∧
      kept.length + (lostOf (handlerRx bs s).2).length = bs.length) ∧
    ((handlerRx bs s).2 ≠ [] → (rxQueue (handlerRx bs s).1).length = 127) ∧
    (s.readTail ≠ s.readHead → s.readHead < 128 → (handlerRx bs s).1.readTail ≠ s.readHead ∧
      (handlerRx bs s).1.readBuffer s.readHead = s.readBuffer s.readHead) := by
  induction bs with
  | nil =>
    intro s ht hh _
    exact ⟨ht, rfl, rfl, rfl, rfl, ⟨[], by simp [handlerRx, rxQueue], by simp, by simp [handlerRx, lostOf]⟩,
      fun h => absurd rfl h, fun a _ => ⟨a, rfl⟩⟩
  | cons b bs ih =>
    intro s ht hh hc
    have hlen : (rxQueue s).length = (s.readTail + 128 - s.readHead % 128) % 128 := ring_length _ _ _
    rw [List.length_cons] at hc
    unfold handlerRx
    by_cases hfull : readBufferFull s = true
    · rw [if_pos hfull]
      have hfe : (s.readTail + 1) % 128 = s.readHead := by simpa [readBufferFull, BUFFER_SIZE] using hfull
      have hq : (rxQueue s).length = 127 := by rw [hlen]; omega
      obtain ⟨a, b', c, d, e, ⟨kept, k1, k2, k3⟩, g, j⟩ := ih s ht hh (by omega)
      dsimp only
      refine ⟨a, b', c, d, ?_, ⟨kept, k1, List.Sublist.cons _ k2, ?_⟩, ?_, j⟩
      · unfold gotOf at e ⊢
        rw [List.filterMap_cons]
        exact e
      · unfold lostOf at k3 ⊢
        rw [List.filterMap_cons]
        simp only [List.length_cons]
        omega
      · intro _
        have : (rxQueue (handlerRx bs s).1).length = 127 + kept.length := by rw [k1, List.length_append, hq]
        have h2 : (rxQueue (handlerRx bs s).1).length < 128 := by
          unfold rxQueue; rw [ring_length]; exact Nat.mod_lt _ (by omega)
        omega
    · rw [if_neg hfull]
      have hfe : (s.readTail + 1) % 128 ≠ s.readHead := by simpa [readBufferFull, BUFFER_SIZE] using hfull
      have hfe2 : (s.readTail + 1) % 128 ≠ s.readHead % 128 := by
        rcases hc with h | h
        · rw [Nat.mod_eq_of_lt h]; exact hfe
        · rw [hlen] at h
          omega
      obtain ⟨s', hs'⟩ : ∃ s' : St, { s with readBuffer := upd s.readBuffer s.readTail b, readTail := (s.readTail + 1) % BUFFER_SIZE } = s' :=
        ⟨_, rfl⟩
      rw [hs']
      have hq : rxQueue s' = rxQueue s ++ [b] := by
        subst hs'
        exact ring_push s.readBuffer (s.readHead % 128) s.readTail b (Nat.mod_lt _ (by omega)) ht hfe2
      have e1 : s'.readTail = (s.readTail + 1) % 128 := by subst hs'; rfl
      have e2 : s'.readHead = s.readHead := by subst hs'; rfl
      have e3 : s'.pc = s.pc := by subst hs'; rfl
      have e4 : s'.readBuffer = upd s.readBuffer s.readTail b := by subst hs'; rfl
      obtain ⟨a, b', c, d, e, ⟨kept, k1, k2, k3⟩, g, j⟩ := ih s' (by rw [e1]; exact Nat.mod_lt _ (by omega)) (by rw [e2]; exact hh)
        (by rw [e2, hq, List.length_append, List.length_singleton]; omega)
      rw [e2] at b' j
      rw [e3] at c
      refine ⟨a, b', c, d, e, ⟨b :: kept, ?_, k2.cons_cons b, ?_⟩, g, ?_⟩
      · rw [k1, hq]; simp
      · simp only [List.length_cons]; omega
      · intro hne hlt
        obtain ⟨j1, j2⟩ := j (by rw [e1]; exact hfe) hlt
        refine ⟨j1, ?_⟩
        rw [j2, e4]
        unfold upd
        rw [if_neg (fun h => hne h.symm)]

theorem handlerTx_rx (s : St) : (handlerTx s).readHead = s.readHead ∧ (handlerTx s).readTail = s.readTail ∧
    (handlerTx s).readBuffer = s.readBuffer ∧ (handlerTx s).fifo = s.fifo ∧ (handlerTx s).pc = s.pc := by
  unfold handlerTx
  split
  · split <;> exact ⟨rfl, rfl, rfl, rfl, rfl⟩
  · exact ⟨rfl, rfl, rfl, rfl, rfl⟩

theorem handler_rx (s : St) (h : RxInv s) (hh : Harmless s) :
    RxInv (handler s).1 ∧ (handler s).1.pc = s.pc ∧ gotOf (handler s).2 = [] ∧
    (∃ kept, unread (handler s).1 = pendingRx s.pc ++ rxQueue s ++ kept ∧ kept.Sublist s.fifo ∧
      kept.length + (lostOf (handler s).2).length = s.fifo.length) ∧
    ((handler s).2 ≠ [] → (rxQueue (handler s).1).length = 127) := by
  obtain ⟨e1, e2, e3, e4, e5⟩ := handlerTx_rx s
  have hq : rxQueue (handlerTx s) = rxQueue s := by unfold rxQueue; rw [e1, e2, e3]
  have hle : s.readHead ≤ 128 := by
    by_cases hm : ∃ f c, s.pc = .rMask f c
    · obtain ⟨f, c, hm⟩ := hm
      exact (h.hm f c hm).2
    · have := h.hh (fun f c hc => hm ⟨f, c, hc⟩)
      omega
  obtain ⟨a, b, c, d, e, ⟨kept, k1, k2, k3⟩, g, j⟩ := handlerRx_inv (handlerTx s).fifo (handlerTx s)
    (by rw [e2]; exact h.ht) (by rw [e1]; exact hle) (by rw [e1, hq, e4]; exact hh)
  rw [e1] at b j
  rw [e5] at c
  rw [hq] at k1
  rw [e4] at k2
  show RxInv (handlerRx (handlerTx s).fifo (handlerTx s)).1 ∧ (handlerRx (handlerTx s).fifo (handlerTx s)).1.pc = _ ∧
    gotOf (handlerRx (handlerTx s).fifo (handlerTx s)).2 = [] ∧ (∃ kept : List Byte, unread (handlerRx (handlerTx s).fifo (handlerTx s)).1 = _ ∧ _ ∧
      kept.length + (lostOf (handlerRx (handlerTx s).fifo (handlerTx s)).2).length = _) ∧
    ((handlerRx (handlerTx s).fifo (handlerTx s)).2 ≠ [] → (rxQueue (handlerRx (handlerTx s).fifo (handlerTx s)).1).length = 127)
  refine ⟨⟨a, ?_, ?_, ?_, ?_⟩, c, e, ⟨kept, ?_, k2, ?_⟩, g⟩
  · rw [c, b]; exact h.hh
  · rw [c, b]; exact h.hm
  · intro f hf
    rw [c] at hf
    have := h.hf f hf
    have hlt := h.hh (fun f' c' hc => by rw [hf] at hc; cases hc)
    rw [b]
    exact (j (by rw [e2]; exact this) hlt).1
  · intro f ch hf
    rw [c] at hf
    obtain ⟨q1, q2⟩ := h.hi f ch hf
    have hlt := h.hh (fun f' c' hc => by rw [hf] at hc; cases hc)
    obtain ⟨j1, j2⟩ := j (by rw [e2]; exact q1) hlt
    rw [b]
    exact ⟨j1, by rw [j2, e3]; exact q2⟩
  · unfold unread
    rw [c, d, k1, List.append_nil, List.append_assoc]
  · have := congrArg List.length e4
    omega

/-- An event is harmless in a state unless it is a handler run in the middle of the update of `readHead` that finds
too many bytes. -/
def okEvent (s : St) : Ev → Prop
  | .irq => Harmless s
  | _ => True

/-- Every event of the schedule is harmless. -/
def okSchedule : List Ev → St → Prop
  | [], _ => True
  | e :: es, s => okEvent s e ∧ okSchedule es (step s e).1

/-- Lossy in-order transfer: `out ++ rest` is obtained from `inp` by removing `lost` bytes. -/
def Transfer (inp out rest : List Byte) (lost : Nat) : Prop :=
  (out ++ rest).Sublist inp ∧ (out ++ rest).length + lost = inp.length

/-- Assemble the conclusion for a step that changes nothing on the receive side. -/
theorem rx_same {s t : St} {o : List Out} {e : Ev} (h : RxInv s) (e1 : t.readTail = s.readTail) (e2 : t.readHead = s.readHead)
    (e3 : t.readBuffer = s.readBuffer) (e4 : t.fifo = s.fifo)
    (n1 : ∀ f c, s.pc ≠ .rMask f c) (n2 : ∀ f c, t.pc ≠ .rMask f c)
    (n3 : ∀ f, t.pc = .rFetch f → s.readTail ≠ s.readHead)
    (n4 : ∀ f c, t.pc = .rInc f c → s.readTail ≠ s.readHead ∧ c = s.readBuffer s.readHead)
    (n5 : pendingRx t.pc = pendingRx s.pc) (ho : gotOf o = [] ∧ lostOf o = []) (he : arrivedOf [e] = []) :
    RxInv t ∧ Transfer (unread s ++ arrivedOf [e]) (gotOf o) (unread t) (lostOf o).length := by
  have hu : unread t = unread s := by
    unfold unread rxQueue
    rw [e1, e2, e3, e4, n5]
  refine ⟨⟨by rw [e1]; exact h.ht, fun _ => by rw [e2]; exact h.hh n1, fun f c hc => absurd hc (n2 f c),
      fun f hc => by rw [e1, e2]; exact n3 f hc, fun f c hc => by rw [e1, e2, e3]; exact n4 f c hc⟩, ?_⟩
  rw [ho.1, ho.2, he, hu]
  exact ⟨by simp, by simp⟩

theorem step_rx (s : St) (e : Ev) (h : RxInv s) (ho : okEvent s e) :
    RxInv (step s e).1 ∧
    Transfer (unread s ++ arrivedOf [e]) (gotOf (step s e).2) (unread (step s e).1) (lostOf (step s e).2).length := by
  have stay : ∀ e : Ev, arrivedOf [e] = [] → Transfer (unread s ++ arrivedOf [e]) (gotOf []) (unread s) (lostOf []).length := by
    intro e he
    rw [he]
    exact ⟨by simp [gotOf], by simp [gotOf, lostOf]⟩
  cases e with
  | callWrite ch =>
    simp only [step]
    cases hp : s.pc
    case idle =>
      dsimp only
      split
      all_goals exact rx_same h rfl rfl rfl rfl (by simp [hp]) (by simp) (by simp) (by simp) (by simp [hp, pendingRx]) ⟨rfl, rfl⟩ rfl
    all_goals exact ⟨h, stay (.callWrite ch) rfl⟩
  | callRead =>
    simp only [step]
    cases hp : s.pc
    case idle =>
      exact rx_same h rfl rfl rfl rfl (by simp [hp]) (by simp) (by simp) (by simp) (by simp [hp, pendingRx]) ⟨rfl, rfl⟩ rfl
    all_goals exact ⟨h, stay .callRead rfl⟩
  | shift =>
    simp only [step]
    cases s.thr with
    | none => exact ⟨h, stay .shift rfl⟩
    | some b =>
      refine ⟨⟨h.ht, h.hh, h.hm, h.hf, h.hi⟩, ?_⟩
      exact ⟨by simp [gotOf, arrivedOf, unread, rxQueue], by simp [gotOf, arrivedOf, lostOf, unread, rxQueue]⟩
  | arrive b =>
    simp only [step]
    split
    · refine ⟨⟨h.ht, h.hh, h.hm, h.hf, h.hi⟩, ?_⟩
      have : unread { s with fifo := s.fifo ++ [b] } = unread s ++ [b] := by
        unfold unread
        show pendingRx s.pc ++ rxQueue s ++ (s.fifo ++ [b]) = _
        simp
      rw [this]
      exact ⟨by simp [gotOf, arrivedOf], by simp [gotOf, arrivedOf, lostOf]⟩
    · exact ⟨h, by simp [gotOf, arrivedOf], by simp [gotOf, arrivedOf, lostOf]⟩
  | irq =>
    obtain ⟨a, b, c, ⟨kept, k1, k2, k3⟩, g⟩ := handler_rx s h ho
    show RxInv (handler s).1 ∧ Transfer (unread s ++ []) (gotOf (handler s).2) (unread (handler s).1) (lostOf (handler s).2).length
    refine ⟨a, ⟨?_, ?_⟩⟩
    · rw [c, k1, List.append_nil, List.nil_append]
      exact List.Sublist.append_left k2 _
    · rw [c, k1]
      unfold unread
      simp only [List.length_append, List.length_nil]
      omega
  | main =>
    show RxInv (mainStep s).1 ∧ Transfer (unread s ++ []) (gotOf (mainStep s).2) (unread (mainStep s).1) (lostOf (mainStep s).2).length
    unfold mainStep
    cases hp : s.pc with
    | idle => exact ⟨h, stay .main rfl⟩
    | wLsr ch =>
      dsimp only
      split
      all_goals exact rx_same (e := .main) h rfl rfl rfl rfl (by simp [hp]) (by simp) (by simp) (by simp) (by simp [hp, pendingRx]) ⟨rfl, rfl⟩ rfl
    | wDirect ch => exact rx_same (e := .main) h rfl rfl rfl rfl (by simp [hp]) (by simp) (by simp) (by simp) (by simp [hp, pendingRx]) ⟨rfl, rfl⟩ rfl
    | wIer => exact rx_same (e := .main) h rfl rfl rfl rfl (by simp [hp]) (by simp) (by simp) (by simp) (by simp [hp, pendingRx]) ⟨rfl, rfl⟩ rfl
    | wWait ch n =>
      dsimp only
      split
      · exact ⟨h, stay .main rfl⟩
      · exact rx_same (e := .main) h rfl rfl rfl rfl (by simp [hp]) (by simp) (by simp) (by simp) (by simp [hp, pendingRx]) ⟨rfl, rfl⟩ rfl
    | wStore ch n => exact rx_same (e := .main) h rfl rfl rfl rfl (by simp [hp]) (by simp) (by simp) (by simp) (by simp [hp, pendingRx]) ⟨rfl, rfl⟩ rfl
    | wTail ch n => exact rx_same (e := .main) h rfl rfl rfl rfl (by simp [hp]) (by simp) (by simp) (by simp) (by simp [hp, pendingRx]) ⟨rfl, rfl⟩ rfl
    | rCheck full =>
      dsimp only
      split
      · exact rx_same (e := .main) h rfl rfl rfl rfl (by simp [hp]) (by simp) (by simp) (by simp) (by simp [hp, pendingRx]) ⟨rfl, rfl⟩ rfl
      · rename_i hne
        exact rx_same (e := .main) h rfl rfl rfl rfl (by simp [hp]) (by simp) (fun _ _ => hne) (by simp) (by simp [hp, pendingRx]) ⟨rfl, rfl⟩ rfl
    | rFetch full =>
      have hne := h.hf full hp
      refine rx_same (e := .main) h rfl rfl rfl rfl (by simp [hp]) (by simp) (by simp) ?_ (by simp [hp, pendingRx]) ⟨rfl, rfl⟩ rfl
      intro f c hc
      simp at hc
      exact ⟨hne, hc.2.symm⟩
    | rInc full ch =>
      dsimp only
      obtain ⟨hne, hch⟩ := h.hi full ch hp
      have hlt := h.hh (fun f c hc => by rw [hp] at hc; cases hc)
      have htl := h.ht
      refine ⟨⟨h.ht, ?_, ?_, ?_, ?_⟩, ?_⟩
      · intro hn; exact absurd rfl (hn full ch)
      · intro f c _
        show 1 ≤ s.readHead + 1 ∧ s.readHead + 1 ≤ 128
        omega
      · intro f hc; simp at hc
      · intro f c hc; simp at hc
      · have hu : unread { s with readHead := s.readHead + 1, pc := .rMask full ch } = unread s := by
          unfold unread rxQueue
          show [ch] ++ ring s.readBuffer ((s.readHead + 1) % 128) s.readTail ++ s.fifo = pendingRx s.pc ++ ring s.readBuffer (s.readHead % 128) s.readTail ++ s.fifo
          rw [hp, Nat.mod_eq_of_lt hlt, ring_pop s.readBuffer s.readHead s.readTail hlt htl (fun q => hne q.symm), hch]
          rfl
        rw [hu]
        exact stay .main rfl
    | rMask full ch =>
      dsimp only
      refine ⟨⟨h.ht, ?_, ?_, ?_, ?_⟩, ?_⟩
      · intro _; exact Nat.mod_lt _ (by decide)
      · intro f c hc; simp at hc
      · intro f hc; simp at hc
      · intro f c hc; simp at hc
      · have hu : unread { s with readHead := s.readHead % BUFFER_SIZE, pc := .rPost full (some ch) } = unread s := by
          unfold unread rxQueue
          show [ch] ++ ring s.readBuffer (s.readHead % 128 % 128) s.readTail ++ s.fifo = pendingRx s.pc ++ ring s.readBuffer (s.readHead % 128) s.readTail ++ s.fifo
          rw [hp, Nat.mod_mod]
          rfl
        rw [hu]
        exact stay .main rfl
    | rPost full ch =>
      dsimp only
      have hlt := h.hh (fun f c hc => by rw [hp] at hc; cases hc)
      have hinv : RxInv { s with pc := .idle } :=
        ⟨h.ht, fun _ => hlt, fun f c hc => by simp at hc, fun f hc => by simp at hc, fun f c hc => by simp at hc⟩
      have hun : unread s = ch.toList ++ unread { s with pc := .idle } := by
        unfold unread
        rw [hp]
        cases ch <;> rfl
      have hgot : gotOf [.got ch] = ch.toList := by cases ch <;> rfl
      split
      · obtain ⟨a, b, c, ⟨kept, k1, k2, k3⟩, -⟩ := handler_rx { s with pc := .idle } hinv (Or.inl hlt)
        refine ⟨a, ?_, ?_⟩
        · unfold gotOf at c hgot ⊢
          rw [List.filterMap_append, c, hgot, k1, hun, List.append_nil, List.nil_append]
          refine List.Sublist.append_left ?_ _
          show ([] ++ rxQueue s ++ kept).Sublist ([] ++ rxQueue s ++ s.fifo)
          exact List.Sublist.append_left k2 _
        · unfold gotOf lostOf at *
          rw [List.filterMap_append, List.filterMap_append, c, hgot, k1, hun]
          unfold unread at *
          simp only [List.length_append, List.length_nil, List.filterMap_cons, List.filterMap_nil] at k3 ⊢
          have : s.fifo.length = ({ s with pc := .idle } : St).fifo.length := rfl
          have e2 : rxQueue s = rxQueue { s with pc := .idle } := rfl
          have e3 : pendingRx ({ s with pc := .idle } : St).pc = [] := rfl
          simp only [e3, List.length_nil]
          omega
      · refine ⟨hinv, ?_⟩
        rw [hgot, hun]
        exact ⟨by simp, by simp [lostOf]⟩

theorem gotOf_append (a b : List Out) : gotOf (a ++ b) = gotOf a ++ gotOf b := List.filterMap_append
theorem lostOf_append (a b : List Out) : lostOf (a ++ b) = lostOf a ++ lostOf b := List.filterMap_append

theorem run_rx (es : List Ev) : ∀ s, RxInv s → okSchedule es s →
    RxInv (run es s).1 ∧ Transfer (unread s ++ arrivedOf es) (gotOf (run es s).2) (unread (run es s).1) (lostOf (run es s).2).length := by
  induction es with
  | nil => intro s h _; exact ⟨h, by simp [run, gotOf, arrivedOf], by simp [run, gotOf, arrivedOf, lostOf]⟩
  | cons e es ih =>
    intro s h ho
    obtain ⟨a, b1, b2⟩ := step_rx s e h ho.1
    obtain ⟨c, d1, d2⟩ := ih _ a ho.2
    refine ⟨c, ?_⟩
    show Transfer (unread s ++ arrivedOf (e :: es)) (gotOf ((step s e).2 ++ (run es (step s e).1).2)) (unread (run es (step s e).1).1)
      (lostOf ((step s e).2 ++ (run es (step s e).1).2)).length
    have ha : arrivedOf (e :: es) = arrivedOf [e] ++ arrivedOf es := by
      rw [show e :: es = [e] ++ es from rfl]; exact List.filterMap_append
    rw [gotOf_append, lostOf_append, ha]
    constructor
    · rw [List.append_assoc, ← List.append_assoc (unread s)]
      refine List.Sublist.trans ?_ (List.Sublist.append_right b1 (arrivedOf es))
      rw [List.append_assoc]
      exact List.Sublist.append_left d1 _
    · simp only [List.length_append] at b2 d2 ⊢
      omega

theorem init_rx (rb wb : Nat → Byte) : RxInv (init rb wb) ∧ unread (init rb wb) = [] := by
  refine ⟨⟨by show 0 < 128; omega, fun _ => by show 0 < 128; omega, ?_, ?_, ?_⟩, ?_⟩
  case refine_4 => simp [unread, rxQueue, init, ring, pendingRx]
  all_goals intros; simp_all [init]

/-- **C34 (receive), partial.** Under every interleaving in which no interrupt hits the two-instruction update of the
read index with more bytes pending than there is room for: what `read` has returned, followed by what is
still to be read, is a subsequence of what arrived, with exactly the bytes reported as thrown away
missing. So bytes come out in order, none is duplicated or invented, and if none was thrown away, the
two are equal. Missing: the excluded interleavings, for which the property is false, see
`C34_receive_race`. -/
theorem C34_receive_fifo_partial (rb wb : Nat → Byte) (es : List Ev) (hok : okSchedule es (init rb wb)) :
    ∃ rest, (gotOf (run es (init rb wb)).2 ++ rest).Sublist (arrivedOf es) ∧
      (gotOf (run es (init rb wb)).2 ++ rest).length + (lostOf (run es (init rb wb)).2).length = (arrivedOf es).length ∧
      ((lostOf (run es (init rb wb)).2) = [] → gotOf (run es (init rb wb)).2 ++ rest = arrivedOf es) := by
  obtain ⟨a, b1, b2⟩ := run_rx es _ (init_rx rb wb).1 hok
  rw [(init_rx rb wb).2, List.nil_append] at b1 b2
  refine ⟨_, b1, b2, fun h => ?_⟩
  rw [h] at b2
  exact b1.eq_of_length (by simpa using b2)

theorem handlerRx_drop (bs : List Byte) : ∀ s, ∀ o ∈ (handlerRx bs s).2, (∃ b, o = .dropped b) ∧
    ((handlerRx bs s).1.readTail + 1) % 128 = (handlerRx bs s).1.readHead := by
  induction bs with
  | nil => intro s o ho; simp [handlerRx] at ho
  | cons b bs ih =>
    intro s o ho
    unfold handlerRx at ho ⊢
    by_cases hfull : readBufferFull s = true
    · rw [if_pos hfull] at ho ⊢
      have hfix : ∀ (bs : List Byte) (s : St), readBufferFull s = true → (handlerRx bs s).1.readTail = s.readTail ∧
          (handlerRx bs s).1.readHead = s.readHead := by
        intro bs
        induction bs with
        | nil => intro s _; exact ⟨rfl, rfl⟩
        | cons b bs ih2 =>
          intro s hs
          unfold handlerRx
          rw [if_pos hs]
          exact ih2 s hs
      dsimp only at ho ⊢
      rw [(hfix bs s hfull).1, (hfix bs s hfull).2]
      have hfe : (s.readTail + 1) % 128 = s.readHead := by simpa [readBufferFull, BUFFER_SIZE] using hfull
      refine ⟨?_, hfe⟩
      rcases List.mem_cons.mp ho with q | q
      · exact ⟨b, q⟩
      · exact (ih s o q).1
    · rw [if_neg hfull] at ho ⊢
      exact ih _ o ho

/-- **C34 (receive).** In every state and under every interleaving, a received byte is thrown away only when the
buffer is full (127 unread bytes) or, by the UART, when its own 16-byte FIFO is full. -/
theorem C34_drops_only_when_full (s : St) (e : Ev) (b : Byte) :
    (.dropped b ∈ (step s e).2 → (rxQueue (step s e).1).length = 127) ∧
    (.overrun b ∈ (step s e).2 → 16 ≤ s.fifo.length) := by
  have full127 : ∀ t : St, (t.readTail + 1) % 128 = t.readHead → (rxQueue t).length = 127 := by
    intro t ht
    unfold rxQueue
    rw [ring_length]
    omega
  have key : ∀ t : St, .dropped b ∈ (handler t).2 → (rxQueue (handler t).1).length = 127 := by
    intro t ht
    exact full127 _ (handlerRx_drop _ _ _ ht).2
  have key2 : ∀ t : St, .overrun b ∉ (handler t).2 := by
    intro t ht
    obtain ⟨⟨b', hb⟩, -⟩ := handlerRx_drop _ _ _ ht
    cases hb
  cases e with
  | callWrite ch => simp only [step]; cases s.pc <;> simp; split <;> simp
  | callRead => simp only [step]; cases s.pc <;> simp
  | irq => exact ⟨key s, fun q => absurd q (key2 s)⟩
  | shift => simp only [step]; cases s.thr <;> simp
  | arrive c =>
    simp only [step]
    split
    · simp
    · rename_i hlt
      refine ⟨by simp, fun _ => ?_⟩
      simp only [FIFO_DEPTH] at hlt
      omega
  | main =>
    show (.dropped b ∈ (mainStep s).2 → (rxQueue (mainStep s).1).length = 127) ∧
      (.overrun b ∈ (mainStep s).2 → 16 ≤ s.fifo.length)
    unfold mainStep
    cases s.pc with
    | rPost full ch =>
      dsimp only
      split
      · dsimp only
        constructor
        · intro q
          rcases List.mem_append.mp q with q | q
          · exact key _ q
          · simp at q
        · intro q
          rcases List.mem_append.mp q with q | q
          · exact absurd q (key2 _)
          · simp at q
      · simp
    | wLsr ch => dsimp only; split <;> simp
    | wWait ch n => dsimp only; split <;> simp
    | rCheck f => dsimp only; split <;> simp
    | _ => simp

/-- **C34.** Outside `read`, `available()` is the number of bytes waiting in the buffer and `peek()` the oldest of them
(-1 if there is none). -/
theorem C34_available_peek (s : St) (h1 : s.readHead < 128) (h2 : s.readTail < 128) :
    available s = (rxQueue s).length ∧ peek s = (rxQueue s).head? := by
  have hm : s.readHead % 128 = s.readHead := Nat.mod_eq_of_lt h1
  constructor
  · unfold available rxQueue
    rw [ring_length, hm]
    simp only [BUFFER_SIZE]
    split <;> omega
  · unfold peek rxQueue
    rw [hm]
    split
    · rename_i he
      rw [he, ring_empty _ _ h1]
      rfl
    · rename_i hne
      rw [ring_pop _ _ _ h1 h2 (fun q => hne q.symm)]
      rfl

/-- A schedule: the main program reads, the handler runs in between. -/
def demoRead : List Ev :=
  [.arrive 0x31#8, .arrive 0x32#8, .irq, .callRead, .main, .arrive 0x33#8, .main, .irq, .main, .main, .main]

/-- Non-vacuity: the schedule is harmless and delivers the first byte. -/
example : okSchedule demoRead (init (fun _ => 0#8) (fun _ => 0#8)) ∧
    gotOf (run demoRead (init (fun _ => 0#8) (fun _ => 0#8))).2 = [0x31#8] := by
  refine ⟨?_, by decide +kernel⟩
  simp only [demoRead, okSchedule, okEvent, Harmless, true_and, and_true]
  refine ⟨Or.inl (by decide +kernel), Or.inl (by decide +kernel)⟩

/-- `n` received bytes, each one fetched by the handler. -/
def feed : Nat → List Ev
  | 0 => []
  | n + 1 => .arrive (BitVec.ofNat 8 n) :: .irq :: feed n

/-- Reads of one byte. -/
def readOne : List Ev := [.callRead, .main, .main, .main, .main, .main]

/-- The schedule of the race: 127 bytes are received and read, so that both indices are 127; then the buffer is filled
with 127 more; the 128th read is interrupted between `++readHead` and `readHead &= MASK`, and the handler
finds two bytes. -/
def raceSchedule : List Ev :=
  feed 127 ++ (List.replicate 127 readOne).flatten ++ feed 127 ++
    [.callRead, .main, .main, .main, .arrive 0xAA#8, .arrive 0xBB#8, .irq, .main, .main, .callRead, .main, .main]

/-- **C34, finding.** Because the read index is 128 for a moment, an interrupt at that point that finds two bytes lets
the ring overflow: afterwards the buffer appears empty although no byte was reported as dropped — `read`
returns -1, and 128 received bytes are lost. -/
theorem C34_receive_race :
    let r := run raceSchedule (init (fun _ => 0#8) (fun _ => 0#8))
    r.2.getLast? = some (.got none) ∧ lostOf r.2 = [] ∧ (gotOf r.2).length = 128 ∧ (arrivedOf raceSchedule).length = 256 ∧
      r.1.pc = .idle ∧ rxQueue r.1 = [] ∧ r.1.fifo = [] := by
  decide +kernel

end Verif.Serial
