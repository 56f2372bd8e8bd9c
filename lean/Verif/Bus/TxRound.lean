import Verif.Bus.TxLemmas

/-!
# Lemmas about transmission: from the acceptance of a telegram to its completion
-/

namespace Verif.Bus

open Verif.Knx

/-! ## Counting -/

theorem count_append (o : Out) (l m : List Out) : count o (l ++ m) = count o l + count o m := by
  simp [count]

theorem completions_append (l m : List Out) :
    completions (l ++ m) = completions l + completions m := by
  simp [completions]

theorem neutral_count {l : List Out} (h : ∀ o ∈ l, neutral o) {o : Out} (ho : neutral o = false) :
    count o l = 0 := by
  unfold count
  rw [List.countP_eq_zero]
  intro x hx e
  rw [beq_iff_eq] at e
  subst e
  rw [h x hx] at ho
  cases ho

theorem neutral_completions {l : List Out} (h : ∀ o ∈ l, neutral o) : completions l = 0 := by
  unfold completions
  rw [List.countP_eq_zero]
  intro x hx e
  have := h x hx
  cases x <;> simp_all [neutral]

/-! ## The repeat flag -/

/-- The buffer with the repeat flag cleared. -/
def rep (t : Buf) : Buf :=
  if t 0 &&& 0x20#8 ≠ 0#8 then markRepeated t (telegramSize t + 1) else t

theorem marked_eq (b : Bus) (t : Buf) : marked b t = if b.repeatTel then rep t else t := by
  unfold marked rep
  cases b.repeatTel <;> simp

theorem telegramSize_pos (t : Buf) : 7 ≤ telegramSize t := by unfold telegramSize; omega

theorem telegramSize_rep (t : Buf) : telegramSize (rep t) = telegramSize t := by
  unfold rep
  split
  · exact telegramSize_markRepeated t
  · rfl

theorem rep_zero (t : Buf) : rep t 0 &&& 0x20#8 = 0#8 := by
  unfold rep
  split
  · have hp := telegramSize_pos t
    have h0 : ¬ (0 = telegramSize t + 1 - 1) := by omega
    simp only [markRepeated, upd, if_neg h0, if_true]
    generalize t 0 = x
    revert x
    decide +kernel
  · next h => simpa using h

theorem rep_rep (t : Buf) : rep (rep t) = rep t := by
  have h : ∀ s : Buf, s 0 &&& 0x20#8 = 0#8 → rep s = s := by
    intro s hs
    unfold rep
    rw [if_neg (by simpa using hs)]
  exact h _ (rep_zero t)

theorem bytes_rep (t : Buf) : bytes (rep t) (telegramSize t + 1) = repeated (frameOf t) := by
  have hp := telegramSize_pos t
  have h0 : at' (frameOf t) 0 = t 0 := by
    unfold frameOf at' List.getD
    rw [bytes_getElem? t _ 0 (by omega)]
    rfl
  have hl : (frameOf t).length = telegramSize t + 1 := bytes_length _ _
  have hn : at' (frameOf t) (telegramSize t) = t (telegramSize t) := by
    unfold frameOf at' List.getD
    rw [bytes_getElem? t _ _ (by omega)]
    rfl
  unfold repeated rep
  rw [h0, hl]
  by_cases hz : t 0 &&& 0x20#8 = 0#8
  · rw [if_pos hz, if_neg (by simpa using hz)]
    rfl
  · rw [if_neg hz, if_pos hz]
    simp only [Nat.add_sub_cancel]
    rw [hn]
    apply List.ext_getElem?
    intro j
    by_cases hj : j < telegramSize t + 1
    · rw [bytes_getElem? _ _ _ hj]
      have hlen2 : (frameOf t).length = telegramSize t + 1 := hl
      by_cases e1 : j = telegramSize t
      · subst e1
        rw [List.getElem?_set_self (by simp only [List.length_set]; omega)]
        have : ¬ (telegramSize t = 0) := by omega
        simp [markRepeated, upd, this]
      · rw [List.getElem?_set_ne (Ne.symm e1)]
        by_cases e0 : j = 0
        · subst e0
          rw [List.getElem?_set_self (by omega)]
          have : ¬ (0 = telegramSize t) := by omega
          simp [markRepeated, upd, this]
        · rw [List.getElem?_set_ne (Ne.symm e0)]
          unfold frameOf
          rw [bytes_getElem? _ _ _ hj]
          simp [markRepeated, upd, e1, e0]
    · rw [List.getElem?_eq_none (by rw [bytes_length]; omega),
        List.getElem?_eq_none (by simp only [List.length_set]; omega)]

/-! ## The transmissions of one telegram -/

/-- What is known about the log and the state between the acceptance of the telegram `t0` (where the
log starts) and its completion. -/
structure Round (t0 : Buf) (R B : Nat) (log : List Out) (b : Bus) : Prop where
  lims : b.sendRetriesMax = R ∧ b.sendBusyRetriesMax = B
  cur : ∃ t, b.sendCur = some t ∧ (t = t0 ∨ t = rep t0 ∧ b.repeatTel = true) ∧
    (SendNow b → t = if b.repeatTel then rep t0 else t0)
  zero : count .txEnd log = 0 → b.repeatTel = false ∧ b.waitForAck = false ∧ b.sendRetries = 0 ∧
    b.sendBusyRetries = 0
  pos : 1 ≤ count .txEnd log → (b.repeatTel = true ∨ b.waitForAck = true) ∧
    count .txEnd log = 1 + b.sendRetries + b.sendBusyRetries
  lim : (b.sendRetries = 0 ∧ b.sendBusyRetries = 0) ∨ (b.sendRetries ≤ R ∧ b.sendBusyRetries < B) ∨
    (b.sendRetries < R ∧ b.sendBusyRetries ≤ B)
  now : SendNow b → b.repeatTel = true → b.sendRetries < R ∧ b.sendBusyRetries < B
  coll : count .collision log = b.collisions.toNat
  compl : completions log = 0
  gram : SendNow b → ∃ pre t, b.sendCur = some t ∧
    log = pre ++ .txBegin :: txChars (bytes t b.nextByteIndex)
  frames : ∀ pre, (pre ++ [.txEnd]) <+: log → ∃ p, pre = p ++ .txBegin ::
    txChars (if count .txEnd p = 0 then frameOf t0 else repeated (frameOf t0))

theorem txF_eq {b c : Bus} (h : txF b = txF c) : b.sendCur = c.sendCur ∧ b.repeatTel = c.repeatTel ∧
    b.waitForAck = c.waitForAck ∧ b.sendRetries = c.sendRetries ∧
    b.sendBusyRetries = c.sendBusyRetries ∧ b.collisions = c.collisions ∧
    b.sendRetriesMax = c.sendRetriesMax ∧ b.sendBusyRetriesMax = c.sendBusyRetriesMax := by
  simpa only [txF, Prod.mk.injEq] using h

theorem noEnd_prefix {pre log outs : List Out} (h : ∀ o ∈ outs, o ≠ .txEnd)
    (hp : (pre ++ [Out.txEnd]) <+: log ++ outs) : (pre ++ [Out.txEnd]) <+: log := by
  by_cases hl : pre.length + 1 ≤ log.length
  · exact List.prefix_of_prefix_length_le hp (List.prefix_append _ _) (by simpa using hl)
  · exfalso
    obtain ⟨s, hs⟩ := hp
    have h1 : (log ++ outs)[pre.length]? = some .txEnd := by
      rw [← hs, List.append_assoc, List.getElem?_append_right (Nat.le_refl _)]
      simp
    rw [List.getElem?_append_right (by omega)] at h1
    exact h _ (List.mem_of_getElem? h1) rfl

theorem neutral_ne {l : List Out} (h : ∀ o ∈ l, neutral o) : ∀ o ∈ l, o ≠ .txEnd := by
  intro o ho e
  have := h o ho
  rw [e] at this
  cases this

theorem prefix_concat {pre log : List Out} (hp : (pre ++ [Out.txEnd]) <+: log ++ [.txEnd]) :
    pre = log ∨ (pre ++ [Out.txEnd]) <+: log := by
  rcases List.prefix_concat_iff.1 hp with h | h
  · left
    exact (List.append_inj' h rfl).1
  · exact Or.inr h

/-- Events that do not concern the queued telegram. -/
theorem Round.keep {t0 : Buf} {R B : Nat} {log outs : List Out} {b c : Bus}
    (h : Round t0 R B log b) (h1 : txF c = txF b) (h2 : ∀ o ∈ outs, neutral o)
    (h3 : ¬ SendNow c) : Round t0 R B (log ++ outs) c := by
  obtain ⟨e1, e2, e3, e4, e5, e6, e7, e8⟩ := txF_eq h1
  obtain ⟨t, ht, ht2, _⟩ := h.cur
  have n1 : count .txEnd (log ++ outs) = count .txEnd log := by
    rw [count_append, neutral_count h2 rfl, Nat.add_zero]
  have n2 : count .collision (log ++ outs) = count .collision log := by
    rw [count_append, neutral_count h2 rfl, Nat.add_zero]
  refine ⟨?_, ⟨t, ?_, ?_, fun x => absurd x h3⟩, ?_, ?_, ?_, fun x => absurd x h3, ?_, ?_,
    fun x => absurd x h3, ?_⟩
  · rw [e7, e8]; exact h.lims
  · rw [e1]; exact ht
  · rw [e2]; exact ht2
  · rw [n1, e2, e3, e4, e5]; exact h.zero
  · rw [n1, e2, e3, e4, e5]; exact h.pos
  · rw [e4, e5]; exact h.lim
  · rw [n2, e6]; exact h.coll
  · rw [completions_append, h.compl, neutral_completions h2]
  · exact fun pre hp => h.frames pre (noEnd_prefix (neutral_ne h2) hp)

theorem txChars_succ (t : Buf) (n : Nat) :
    txChars (bytes t (n + 1)) = txChars (bytes t n) ++ [.txChar (t n) (parityBit (t n))] := by
  simp [txChars, bytes_succ]

/-- What one interrupt does. -/
theorem round_isr {t0 : Buf} {R B : Nat} {log : List Out} {b : Bus} (h : Round t0 R B log b)
    (hi : Inv b) (hn : NoRetryErr b) (i : Irq) :
    Round t0 R B (log ++ (isr i b).2) (isr i b).1 ∨
    ∃ ok, (isr i b).2 = [.finished ok] ∧ (isr i b).1.sendCur = none := by
  have hi' := isr_inv (i := i) hi
  have hx := isr_tx i b hi hn
  generalize isr i b = r at *
  obtain ⟨c, outs⟩ := r
  simp only at hx hi' ⊢
  obtain ⟨t, ht, ht2, ht3⟩ := h.cur
  cases hx with
  | other h1 h2 h3 => exact Or.inl (h.keep h1 h2 h3)
  | same h0 h1 h2 h3 h4 h5 =>
    left
    obtain ⟨e1, e2, e3, e4, e5, e6, e7, e8⟩ := txF_eq h1
    subst h2
    rw [List.append_nil]
    refine ⟨?_, ⟨t, ?_, ?_, ?_⟩, ?_, ?_, ?_, ?_, ?_, h.compl, ?_, h.frames⟩
    · rw [e7, e8]; exact h.lims
    · rw [e1]; exact ht
    · rw [e2]; exact ht2
    · rw [e2]; exact fun _ => ht3 h0
    · rw [e2, e3, e4, e5]; exact h.zero
    · rw [e2, e3, e4, e5]; exact h.pos
    · rw [e4, e5]; exact h.lim
    · rw [e2, e4, e5]; exact fun _ => h.now h0
    · rw [e6]; exact h.coll
    · rw [e1, h4]; exact fun _ => h.gram h0
  | char h0 t' ht' h1 h2 h3 h4 h5 =>
    left
    obtain ⟨e1, e2, e3, e4, e5, e6, e7, e8⟩ := txF_eq h1
    have htt : t' = t := by rw [ht] at ht'; exact (Option.some.inj ht').symm
    subst htt
    have hneu : ∀ o ∈ outs, neutral o := by rw [h2]; simp [neutral]
    have n1 : count .txEnd (log ++ outs) = count .txEnd log := by
      rw [count_append, neutral_count hneu rfl, Nat.add_zero]
    have n2 : count .collision (log ++ outs) = count .collision log := by
      rw [count_append, neutral_count hneu rfl, Nat.add_zero]
    refine ⟨?_, ⟨t', ?_, ?_, ?_⟩, ?_, ?_, ?_, ?_, ?_, ?_, ?_, ?_⟩
    · rw [e7, e8]; exact h.lims
    · rw [e1]; exact ht
    · rw [e2]; exact ht2
    · rw [e2]; exact fun _ => ht3 h0
    · rw [n1, e2, e3, e4, e5]; exact h.zero
    · rw [n1, e2, e3, e4, e5]; exact h.pos
    · rw [e4, e5]; exact h.lim
    · rw [e2, e4, e5]; exact fun _ => h.now h0
    · rw [n2, e6]; exact h.coll
    · rw [completions_append, h.compl, neutral_completions hneu]
    · intro _
      obtain ⟨pre, t2, g1, g2⟩ := h.gram h0
      have : t2 = t' := by rw [ht] at g1; exact (Option.some.inj g1).symm
      subst this
      refine ⟨pre, t2, by rw [e1]; exact ht, ?_⟩
      rw [h4, txChars_succ, g2, h2]
      simp
    · exact fun pre hp => h.frames pre (noEnd_prefix (neutral_ne hneu) hp)
  | begin t' ht' hxh h1 h2 h3 h4 =>
    left
    obtain ⟨e1, e2, e3, e4, e5, e6, e7, e8⟩ := txF_eq h1
    simp only at e1 e2 e3 e4 e5 e6 e7 e8
    have htt : t' = t := by rw [ht] at ht'; exact (Option.some.inj ht').symm
    subst htt
    have n1 : count .txEnd (log ++ outs) = count .txEnd log := by
      rw [count_append, h2]; rfl
    have n2 : count .collision (log ++ outs) = count .collision log := by
      rw [count_append, h2]; rfl
    have hm : marked b t' = if b.repeatTel then rep t0 else t0 := by
      rw [marked_eq]
      cases hr : b.repeatTel
      · rcases ht2 with h | h
        · simpa using h
        · rw [hr] at h; cases h.2
      · simp only [if_true]
        rcases ht2 with h | h
        · rw [h]
        · rw [h.1, rep_rep]
    refine ⟨?_, ⟨marked b t', ?_, ?_, ?_⟩, ?_, ?_, ?_, ?_, ?_, ?_, ?_, ?_⟩
    · rw [e7, e8]; exact h.lims
    · rw [e1]
    · rw [e2, hm]
      cases hr : b.repeatTel
      · exact Or.inl rfl
      · exact Or.inr ⟨rfl, rfl⟩
    · rw [e2]; exact fun _ => hm
    · rw [n1, e2, e3, e4, e5]; exact h.zero
    · rw [n1, e2, e3, e4, e5]; exact h.pos
    · rw [e4, e5]; exact h.lim
    · rw [e2, e4, e5]
      intro _ hr
      unfold retriesExhausted at hxh
      rw [hr] at hxh
      simp only [Bool.true_and, Bool.or_eq_false_iff, decide_eq_false_iff_not] at hxh
      rw [← h.lims.1, ← h.lims.2]
      omega
    · rw [n2, e6]; exact h.coll
    · rw [completions_append, h.compl, h2]; rfl
    · intro _
      refine ⟨log, marked b t', by rw [e1], ?_⟩
      rw [h4, h2]
      rfl
    · exact fun pre hp => h.frames pre (noEnd_prefix (by rw [h2]; simp) hp)
  | done h0 hs h1 h2 h3 =>
    left
    obtain ⟨e1, e2, e3, e4, e5, e6, e7, e8⟩ := txF_eq h1
    simp only [counted] at e1 e2 e3 e4 e5 e6 e7 e8
    have n1 : count .txEnd (log ++ outs) = count .txEnd log + 1 := by
      rw [count_append, h2]; rfl
    have n2 : count .collision (log ++ outs) = count .collision log := by
      rw [count_append, h2]; rfl
    have hns : ¬ SendNow c := notSendNow (by rw [h3]; exact id)
    have hwb : b.waitForAck = false := waitForAck_false hi h0.1
    refine ⟨?_, ⟨t, ?_, ?_, fun x => absurd x hns⟩, ?_, ?_, ?_, fun x => absurd x hns, ?_, ?_,
      fun x => absurd x hns, ?_⟩
    · rw [e7, e8]; exact h.lims
    · rw [e1]; exact ht
    · rw [e2]; exact ht2
    · rw [n1]; intro x; omega
    · rw [n1, e2, e3, e4, e5]
      intro _
      refine ⟨Or.inr rfl, ?_⟩
      by_cases hz : count .txEnd log = 0
      · obtain ⟨z1, _, z3, z4⟩ := h.zero hz
        simp [z1, z3, z4, hz]
      · obtain ⟨p1, p2⟩ := h.pos (by omega)
        have hr : b.repeatTel = true := by
          rcases p1 with p | p
          · exact p
          · rw [hwb] at p; cases p
        rw [hr, p2]
        cases b.busyWait <;> simp <;> omega
    · rw [e4, e5]
      cases hr : b.repeatTel
      · simpa using h.lim
      · have := h.now h0 hr
        cases b.busyWait <;> simp <;> omega
    · rw [n2, e6]; exact h.coll
    · rw [completions_append, h.compl, h2]; rfl
    · intro pre hp
      rw [h2] at hp
      rcases prefix_concat hp with rfl | hp
      · obtain ⟨p, t2, g1, g2⟩ := h.gram h0
        have : t2 = t := by rw [ht] at g1; exact (Option.some.inj g1).symm
        subst this
        refine ⟨p, ?_⟩
        rw [g2]
        have hcount : count .txEnd pre = count .txEnd p := by
          rw [g2, count_append]
          have : count .txEnd (Out.txBegin :: txChars (bytes t2 b.nextByteIndex)) = 0 := by
            apply Nat.eq_zero_of_le_zero
            unfold count
            rw [Nat.le_zero, List.countP_eq_zero]
            intro o ho
            rcases List.mem_cons.1 ho with rfl | ho
            · simp
            · obtain ⟨x, _, rfl⟩ := List.mem_map.1 ho
              simp
          omega
        have hlen : b.nextByteIndex = telegramSize t2 + 1 := by
          obtain ⟨t3, g3, g4, _⟩ := hi.cur h0.1 h0.2
          have : t3 = t2 := by rw [ht] at g3; exact (Option.some.inj g3).symm
          subst this
          rw [hi.idxEnd hs h0.2, g4]
        have htn := ht3 h0
        rw [hlen, ← hcount]
        by_cases hz : count .txEnd pre = 0
        · have hr := (h.zero hz).1
          rw [hr] at htn
          rw [if_pos hz]
          simp only [Bool.false_eq_true, if_false] at htn
          rw [htn]
          rfl
        · obtain ⟨p1, _⟩ := h.pos (by omega)
          have hr : b.repeatTel = true := by
            rcases p1 with p | p
            · exact p
            · rw [hwb] at p; cases p
          rw [hr] at htn
          simp only [if_true] at htn
          rw [if_neg hz, htn, telegramSize_rep, bytes_rep]
      · exact h.frames pre hp
  | lost h0 p l h1 h2 hp hl h3 =>
    left
    obtain ⟨e1, e2, e3, e4, e5, e6, e7, e8⟩ := txF_eq h1
    simp only at e1 e2 e3 e4 e5 e6 e7 e8
    have n1 : count .txEnd (log ++ outs) = count .txEnd log := by
      rw [count_append, h2, count_append, neutral_count hp rfl,
        show (Out.collision :: l) = [.collision] ++ l from rfl, count_append, neutral_count hl rfl]
      rfl
    have n2 : count .collision (log ++ outs) = count .collision log + 1 := by
      rw [count_append, h2, count_append, neutral_count hp rfl,
        show (Out.collision :: l) = [.collision] ++ l from rfl, count_append, neutral_count hl rfl]
      rw [show count .collision [.collision] = 1 from rfl]
    obtain ⟨_, _, _, hcoll⟩ := hi.cur h0.1 h0.2
    refine ⟨?_, ⟨t, ?_, ?_, fun x => absurd x h3⟩, ?_, ?_, ?_, fun x => absurd x h3, ?_, ?_,
      fun x => absurd x h3, ?_⟩
    · rw [e7, e8]; exact h.lims
    · rw [e1]; exact ht
    · rw [e2]; exact ht2
    · rw [n1, e2, e3, e4, e5]; exact h.zero
    · rw [n1, e2, e3, e4, e5]; exact h.pos
    · rw [e4, e5]; exact h.lim
    · rw [n2, e6, h.coll, BitVec.toNat_add]
      simp only [BitVec.toNat_ofNat]
      omega
    · rw [completions_append, h.compl, h2, completions_append, neutral_completions hp,
        show (Out.collision :: l) = [.collision] ++ l from rfl, completions_append,
        neutral_completions hl]
      rfl
    · refine fun pre hpr => h.frames pre (noEnd_prefix ?_ hpr)
      rw [h2]
      intro o ho
      rcases List.mem_append.1 ho with ho | ho
      · exact neutral_ne hp o ho
      · rcases List.mem_cons.1 ho with rfl | ho
        · simp
        · exact neutral_ne hl o ho
  | noAck h0 h1 h2 h3 =>
    left
    obtain ⟨e1, e2, e3, e4, e5, e6, e7, e8⟩ := txF_eq h1
    simp only at e1 e2 e3 e4 e5 e6 e7 e8
    have n1 : count .txEnd (log ++ outs) = count .txEnd log := by
      rw [count_append, neutral_count h2 rfl, Nat.add_zero]
    have n2 : count .collision (log ++ outs) = count .collision log := by
      rw [count_append, neutral_count h2 rfl, Nat.add_zero]
    refine ⟨?_, ⟨t, ?_, ?_, fun x => absurd x h3⟩, ?_, ?_, ?_, fun x => absurd x h3, ?_, ?_,
      fun x => absurd x h3, ?_⟩
    · rw [e7, e8]; exact h.lims
    · rw [e1]; exact ht
    · rw [e2]
      rcases ht2 with h | h
      · exact Or.inl h
      · exact Or.inr ⟨h.1, rfl⟩
    · rw [n1]
      intro hz
      have := (h.zero hz).2.1
      rw [h0] at this
      cases this
    · rw [n1, e2, e4, e5]
      exact fun hz => ⟨Or.inl rfl, (h.pos hz).2⟩
    · rw [e4, e5]; exact h.lim
    · rw [n2, e6]; exact h.coll
    · rw [completions_append, h.compl, neutral_completions h2]
    · exact fun pre hp => h.frames pre (noEnd_prefix (neutral_ne h2) hp)
  | finish ok h0 h1 h2 h3 h4 h5 h6 => exact Or.inr ⟨ok, h2, h1⟩

/-! ## Steps and runs -/

/-- The event changes a retry limit. -/
def isSetter : Ev → Bool
  | .maxRetries _ | .maxBusyRetries _ => true
  | _ => false

/-- After the completion. -/
structure Over (t0 : Buf) (R B : Nat) (log : List Out) (b : Bus) : Prop where
  cur : b.sendCur = none
  ends : count .txEnd log ≤ max 1 (R + B)
  coll : count .collision log ≤ 4
  compl : completions log = 1
  frames : ∀ pre, (pre ++ [.txEnd]) <+: log → ∃ p, pre = p ++ .txBegin ::
    txChars (if count .txEnd p = 0 then frameOf t0 else repeated (frameOf t0))

theorem Round.ends {t0 : Buf} {R B : Nat} {log : List Out} {b : Bus} (h : Round t0 R B log b) :
    count .txEnd log ≤ max 1 (R + B) := by
  by_cases hz : count .txEnd log = 0
  · omega
  · have h1 := (h.pos (by omega)).2
    have h2 := h.lim
    omega

/-- Without a queued telegram nothing is transmitted. -/
theorem quiet_isr (i : Irq) (b : Bus) (hi : Inv b) (hn : NoRetryErr b) (hc : b.sendCur = none) :
    (∀ o ∈ (isr i b).2, neutral o) ∧ (isr i b).1.sendCur = none := by
  have hx := isr_tx i b hi hn
  have no : ∀ {p : Prop}, SendNow b → p := fun h0 => by
    obtain ⟨t, h1, _⟩ := hi.cur h0.1 h0.2
    rw [hc] at h1
    cases h1
  generalize isr i b = r at *
  obtain ⟨c, outs⟩ := r
  cases hx with
  | other h1 h2 h3 => exact ⟨h2, (txF_eq h1).1.trans hc⟩
  | same h0 => exact no h0
  | char h0 => exact no h0
  | begin t ht => rw [hc] at ht; cases ht
  | done h0 => exact no h0
  | lost h0 => exact no h0
  | noAck h0 =>
    have := (hi.waitSt h0).2
    rw [hc] at this
    cases this
  | finish ok h0 => rw [hc] at h0; cases h0

theorem Over.keep {t0 : Buf} {R B : Nat} {log outs : List Out} {b c : Bus} (h : Over t0 R B log b)
    (hc : c.sendCur = none) (h2 : ∀ o ∈ outs, neutral o) : Over t0 R B (log ++ outs) c := by
  refine ⟨hc, ?_, ?_, ?_, ?_⟩
  · rw [count_append, neutral_count h2 rfl]; exact h.ends
  · rw [count_append, neutral_count h2 rfl]; exact h.coll
  · rw [completions_append, neutral_completions h2]; exact h.compl
  · exact fun pre hp => h.frames pre (noEnd_prefix (neutral_ne h2) hp)

/-- Events other than interrupts leave the log alone, and the telegram too. -/
theorem step_other (s : Sys) (e : Ev) (he : ∀ i, e ≠ .irq i) (hset : isSetter e = false)
    (hacc : accepted s [e] = 0) :
    (step s e).2 = [] ∧ txF (step s e).1.bus = txF s.bus ∧
    ((step s e).1.bus.st = s.bus.st ∧ (step s e).1.bus.sendAck = s.bus.sendAck ∧
      (step s e).1.bus.nextByteIndex = s.bus.nextByteIndex ∧
      (step s e).1.bus.sendTelegramLen = s.bus.sendTelegramLen ∨ ¬ SendNow (step s e).1.bus) := by
  cases e <;> simp only [step]
  case irq i => exact absurd rfl (he i)
  case queue own t len =>
    cases hc : s.bus.sendCur with
    | none => simp [accepted, hc] at hacc
    | some t => exact ⟨rfl, rfl, Or.inl ⟨rfl, rfl, rfl, rfl⟩⟩
  case kick =>
    split
    · exact ⟨rfl, rfl, Or.inr (notSendNow id)⟩
    · exact ⟨rfl, rfl, Or.inl ⟨rfl, rfl, rfl, rfl⟩⟩
  case discard => exact ⟨trivial, rfl, Or.inl ⟨trivial, trivial, trivial, trivial⟩⟩
  case pause w =>
    split
    · exact ⟨rfl, rfl, Or.inr (notSendNow id)⟩
    · exact ⟨rfl, rfl, Or.inl ⟨rfl, rfl, rfl, rfl⟩⟩
  case resume =>
    split
    · exact ⟨rfl, rfl, Or.inr (notSendNow id)⟩
    · exact ⟨rfl, rfl, Or.inl ⟨rfl, rfl, rfl, rfl⟩⟩
  case maxRetries => cases hset
  case maxBusyRetries => cases hset

theorem Round.congr {t0 : Buf} {R B : Nat} {log : List Out} {b c : Bus} (h : Round t0 R B log b)
    (h1 : txF c = txF b) (h2 : c.st = b.st) (h3 : c.sendAck = b.sendAck)
    (h4 : c.nextByteIndex = b.nextByteIndex) : Round t0 R B log c := by
  obtain ⟨e1, e2, e3, e4, e5, e6, e7, e8⟩ := txF_eq h1
  have hsn : SendNow c = SendNow b := by unfold SendNow; rw [h2, h3]
  obtain ⟨a1, a2, a3, a4, a5, a6, a7, a8, a9, a10⟩ := h
  constructor
  · rw [e7, e8]; exact a1
  · rw [e1, e2, hsn]; exact a2
  · rw [e2, e3, e4, e5]; exact a3
  · rw [e2, e3, e4, e5]; exact a4
  · rw [e4, e5]; exact a5
  · rw [e2, e4, e5, hsn]; exact a6
  · rw [e6]; exact a7
  · exact a8
  · rw [e1, h4, hsn]; exact a9
  · exact a10

theorem round_step {t0 : Buf} {R B : Nat} {log : List Out} {s : Sys} (hi : SysInv s)
    (hn : NoRetryErr s.bus) (e : Ev) (hset : isSetter e = false) (hacc : accepted s [e] = 0)
    (h : Round t0 R B log s.bus ∨ Over t0 R B log s.bus) :
    Round t0 R B (log ++ (step s e).2) (step s e).1.bus ∨
    Over t0 R B (log ++ (step s e).2) (step s e).1.bus := by
  by_cases hirq : ∃ i, e = .irq i
  · obtain ⟨i, rfl⟩ := hirq
    simp only [step]
    cases hp : s.paused
    · simp only [Bool.false_eq_true, if_false]
      rcases h with h | h
      · rcases round_isr h hi.inv hn i with h' | ⟨ok, h1, h2⟩
        · exact Or.inl h'
        · right
          refine ⟨h2, ?_, ?_, ?_, ?_⟩
          · rw [h1, count_append]; exact h.ends
          · rw [h1, count_append, h.coll]; exact hi.inv.coll
          · rw [h1, completions_append, h.compl]; rfl
          · rw [h1]
            exact fun pre hp => h.frames pre (noEnd_prefix (by simp) hp)
      · obtain ⟨q1, q2⟩ := quiet_isr i s.bus hi.inv hn h.cur
        exact Or.inr (h.keep q2 q1)
    · simp only [if_true, List.append_nil]
      exact h
  · obtain ⟨h1, h2, h3⟩ := step_other s e (fun i hi => hirq ⟨i, hi⟩) hset hacc
    rcases h with h | h
    · left
      rcases h3 with ⟨g1, g2, g3, _⟩ | g
      · rw [h1, List.append_nil]
        exact h.congr h2 g1 g2 g3
      · exact h.keep h2 (by rw [h1]; simp) g
    · exact Or.inr (h.keep ((txF_eq h2).1.trans h.cur) (by rw [h1]; simp))

theorem accepted_cons (s : Sys) (e : Ev) (es : List Ev) :
    accepted s (e :: es) = accepted s [e] + accepted (step s e).1 es := rfl

theorem round_run {t0 : Buf} {R B : Nat} {log : List Out} {s : Sys} (hi : SysInv s)
    (hn : NoRetryErr s.bus) (es : List Ev) (hset : ∀ e ∈ es, isSetter e = false)
    (hacc : accepted s es = 0) (h : Round t0 R B log s.bus ∨ Over t0 R B log s.bus) :
    Round t0 R B (log ++ (run s es).2) (run s es).1.bus ∨
    Over t0 R B (log ++ (run s es).2) (run s es).1.bus := by
  induction es generalizing s log with
  | nil => simpa [run] using h
  | cons e es ih =>
    rw [accepted_cons] at hacc
    have h1 := round_step hi hn e (hset e (by simp)) (by omega) h
    have := ih (step_inv hi e) (step_err s e hn) (fun x hx => hset x (List.mem_cons_of_mem _ hx))
      (by omega) h1
    simpa [run] using this

theorem round_start {s : Sys} (hi : SysInv s) (own : Word) (t : Buf) (len : Nat)
    (hc : s.bus.sendCur = none) :
    Round (prepareTelegram own t len) s.bus.sendRetriesMax s.bus.sendBusyRetriesMax []
      (step s (.queue own t len)).1.bus := by
  obtain ⟨f1, f2, f3, f4⟩ := hi.inv.fresh hc
  have hw : s.bus.waitForAck = false := by
    cases hw : s.bus.waitForAck
    · rfl
    · have := (hi.inv.waitSt hw).2
      rw [hc] at this
      cases this
  have hns : ¬ SendNow s.bus := by
    intro h0
    obtain ⟨t, h1, _⟩ := hi.inv.cur h0.1 h0.2
    rw [hc] at h1
    cases h1
  simp only [step, hc]
  refine ⟨⟨rfl, rfl⟩, ⟨_, rfl, Or.inl rfl, fun h => absurd h hns⟩, fun _ => ⟨f2, hw, f3, f4⟩,
    fun h => (by cases h), Or.inl ⟨f3, f4⟩, fun h => absurd h hns, ?_, rfl, fun h => absurd h hns, ?_⟩
  · simp only [f1]; rfl
  · intro pre hp
    have := hp.length_le
    simp at this

/-! ## Waiting for the acknowledge -/

theorem initRx_cap (i : Irq) (b : Bus) (hc : i.cap = true) :
    (initRx i b).2 = [.rxBegin] ∧ (initRx i b).1.st = .recvBits := by
  unfold initRx waitStart
  simp [hc]

theorem recvBits_cases (i : Irq) (b : Bus) :
    ((recvBits i b).2 = [] ∧ (recvBits i b).1.st = b.st) ∨
    ∃ c p, (recvBits i b).2 = [.rxChar c p] ∧ (recvBits i b).1.st = .waitStart := by
  unfold recvBits
  simp only
  split
  · exact Or.inr ⟨_, _, rfl, rfl⟩
  · split <;> exact Or.inl ⟨rfl, rfl⟩

/-- How the wait for an acknowledge goes on. -/
inductive AckStep (b : Bus) (outs : List Out) (b' : Bus) : Prop
  | sent (h1 : outs = [.txEnd]) (h2 : b'.st = .ackWindow)
  | wait (h0 : b.waitForAck = true) (h1 : b.st = .ackWindow ∨ b.st = .waitAck) (h2 : outs = [])
      (h3 : b'.st = .ackWindow ∨ b'.st = .waitAck)
  | start (h0 : b.waitForAck = true) (h1 : b.st = .waitAck) (h2 : outs = [.rxBegin])
      (h3 : b'.st = .recvBits)
  | char (h0 : b.waitForAck = true) (h1 : b.st = .recvBits ∨ b.st = .waitStart)
      (h2 : outs = [] ∨ ∃ c p, outs = [.rxChar c p]) (h3 : b'.st = .recvBits ∨ b'.st = .waitStart)

theorem waitStart_end (i : Irq) (b : Bus) (hc : i.cap = false) :
    (waitStart i b).1.st = .wait50 ∨ (waitStart i b).1.st = .waitAckTx := by
  unfold waitStart
  simp only [hc, Bool.not_false, if_true]
  exact handleTelegram_st _ _ _

theorem dispatch_ack (i : Irq) (b : Bus) (hb : b.waitForAck = true)
    (hst : b.st = .ackWindow ∨ b.st = .waitAck ∨ b.st = .recvBits ∨ b.st = .waitStart)
    (hst' : (dispatch i b).1.st = .ackWindow ∨ (dispatch i b).1.st = .waitAck ∨
      (dispatch i b).1.st = .recvBits ∨ (dispatch i b).1.st = .waitStart) :
    AckStep b (dispatch i b).2 (dispatch i b).1 := by
  rcases hst with h | h | h | h
  · have e : dispatch i b = ackWindow b := by unfold dispatch; rw [h]
    rw [e]
    exact .wait hb (Or.inl h) rfl (Or.inr rfl)
  · have e : dispatch i b = waitAck i b := by unfold dispatch; rw [h]
    rw [e] at hst' ⊢
    unfold waitAck at hst' ⊢
    cases hc : i.cap
    · simp [hc] at hst'
    · obtain ⟨r1, r2⟩ := initRx_cap i b hc
      exact .start hb h r1 r2
  · have e : dispatch i b = recvBits i b := by unfold dispatch; rw [h]
    rw [e]
    rcases recvBits_cases i b with ⟨r1, r2⟩ | ⟨c, p, r1, r2⟩
    · exact .char hb (Or.inl h) (Or.inl r1) (Or.inl (r2.trans h))
    · exact .char hb (Or.inl h) (Or.inr ⟨c, p, r1⟩) (Or.inr r2)
  · have e : dispatch i b = waitStart i b := by unfold dispatch; rw [h]
    rw [e] at hst' ⊢
    cases hc : i.cap
    · rcases waitStart_end i b hc with e | e <;> rw [e] at hst' <;> simp at hst'
    · refine .char hb (Or.inr h) (Or.inl ?_) (Or.inl ?_) <;> unfold waitStart <;> rw [hc] <;> rfl

theorem isr_ack (i : Irq) (b : Bus) (hi : Inv b) (hn : NoRetryErr b)
    (hw : (isr i b).1.waitForAck = true) : AckStep b (isr i b).2 (isr i b).1 := by
  have hx := isr_tx i b hi hn
  have hi' := isr_inv (i := i) hi
  by_cases hb : b.waitForAck = true
  · have hst := (hi.waitSt hb).1
    have hst' := (hi'.waitSt hw).1
    revert hst' hw
    unfold isr
    split
    · intro hw hst'
      rcases hst with h | h | h | h
      · exact .wait hb (Or.inl h) rfl (Or.inl h)
      · exact .wait hb (Or.inr h) rfl (Or.inr h)
      · exact .char hb (Or.inl h) (Or.inl rfl) (Or.inl h)
      · exact .char hb (Or.inr h) (Or.inl rfl) (Or.inr h)
    · intro hw hst'
      cases dispatch_ack i { b with tSet := none } hb hst hst' with
      | sent h1 h2 => exact .sent h1 h2
      | wait h0 h1 h2 h3 => exact .wait h0 h1 h2 h3
      | start h0 h1 h2 h3 => exact .start h0 h1 h2 h3
      | char h0 h1 h2 h3 => exact .char h0 h1 h2 h3
  · generalize isr i b = r at *
    obtain ⟨c, outs⟩ := r
    simp only at hw hx ⊢
    cases hx with
    | other h1 h2 h3 => exact absurd ((txF_eq h1).2.2.1 ▸ hw) hb
    | same h0 h1 => exact absurd ((txF_eq h1).2.2.1 ▸ hw) hb
    | char h0 t ht h1 => exact absurd ((txF_eq h1).2.2.1 ▸ hw) hb
    | begin t ht hxh h1 => exact absurd ((txF_eq h1).2.2.1 ▸ hw) hb
    | done h0 hs h1 h2 h3 => exact .sent h2 h3
    | lost h0 p l h1 => exact absurd ((txF_eq h1).2.2.1 ▸ hw) hb
    | noAck h0 => exact absurd h0 hb
    | finish ok h0 h1 h2 h3 h4 h5 h6 =>
      have := (hi'.waitSt hw).2
      rw [h1] at this
      cases this

/-- While an acknowledge is awaited the log ends with the transmission and what was received
since. -/
def AckLog (log : List Out) (b : Bus) : Prop :=
  b.waitForAck = true →
    (b.st = .ackWindow ∨ b.st = .waitAck → ∃ pre, log = pre ++ [.txEnd]) ∧
    (b.st = .recvBits ∨ b.st = .waitStart →
      ∃ pre cs, log = pre ++ .txEnd :: .rxBegin :: rxChars cs)

theorem isr_ackLog {log : List Out} {b : Bus} (i : Irq) (hi : Inv b) (hn : NoRetryErr b)
    (h : AckLog log b) : AckLog (log ++ (isr i b).2) (isr i b).1 := by
  intro hw
  have hx := isr_ack i b hi hn hw
  generalize isr i b = r at *
  obtain ⟨c, outs⟩ := r
  simp only at hw hx ⊢
  cases hx with
  | sent h1 h2 =>
    refine ⟨fun _ => ⟨log, by rw [h1]⟩, fun h => ?_⟩
    rw [h2] at h
    simp at h
  | wait h0 h1 h2 h3 =>
    obtain ⟨pre, hp⟩ := (h h0).1 h1
    refine ⟨fun _ => ⟨pre, by rw [hp, h2]; simp⟩, fun h => ?_⟩
    rcases h3 with e | e <;> rw [e] at h <;> simp at h
  | start h0 h1 h2 h3 =>
    obtain ⟨pre, hp⟩ := (h h0).1 (Or.inr h1)
    refine ⟨fun h => ?_, fun _ => ⟨pre, [], by rw [hp, h2]; simp [rxChars]⟩⟩
    rw [h3] at h
    simp at h
  | char h0 h1 h2 h3 =>
    obtain ⟨pre, cs, hp⟩ := (h h0).2 h1
    refine ⟨fun h => ?_, fun _ => ?_⟩
    · rcases h3 with e | e <;> rw [e] at h <;> simp at h
    · rcases h2 with h2 | ⟨x, p, h2⟩
      · exact ⟨pre, cs, by rw [hp, h2]; simp⟩
      · exact ⟨pre, cs ++ [(x, p)], by rw [hp, h2]; simp [rxChars]⟩

theorem step_ackLog {log : List Out} {s : Sys} (hi : SysInv s) (hn : NoRetryErr s.bus)
    (h : AckLog log s.bus) (e : Ev) : AckLog (log ++ (step s e).2) (step s e).1.bus := by
  cases e <;> simp only [step]
  case irq i =>
    split
    · simpa using h
    · exact isr_ackLog i hi.inv hn h
  case queue own t len =>
    split
    · simpa using h
    · simpa [AckLog] using h
  case kick =>
    split
    · intro hw
      exact ⟨fun h => by simp [startSendingImmediately] at h,
        fun h => by simp [startSendingImmediately] at h⟩
    · simpa using h
  case discard => simpa [AckLog] using h
  case pause w =>
    split
    · intro hw
      exact ⟨fun h => by simp at h, fun h => by simp at h⟩
    · simpa using h
  case resume =>
    split
    · intro hw
      exact ⟨fun h => by simp [initState] at h, fun h => by simp [initState] at h⟩
    · simpa using h
  case maxRetries => simpa [AckLog] using h
  case maxBusyRetries => simpa [AckLog] using h

theorem run_ackLog {log : List Out} {s : Sys} (hi : SysInv s) (hn : NoRetryErr s.bus)
    (h : AckLog log s.bus) (es : List Ev) : AckLog (log ++ (run s es).2) (run s es).1.bus := by
  induction es generalizing s log with
  | nil => simpa [run] using h
  | cons e es ih =>
    have := ih (step_inv hi e) (step_err s e hn) (step_ackLog hi hn h e)
    simpa [run] using this

theorem boot_err : NoRetryErr boot.bus := by unfold NoRetryErr; decide

theorem boot_ackLog (es : List Ev) : AckLog (run boot es).2 (run boot es).1.bus := by
  have h : AckLog [] boot.bus := fun hw => by cases hw
  simpa using run_ackLog boot_inv boot_err h es

end Verif.Bus
