import Verif.Bus.LinkLemmas

/-!
# C85: exactly once over a lossy line

Device `a` sends a telegram to device `b`; `b` acknowledges what it receives; frames and
acknowledgements may be lost or damaged in any pattern, `a` repeats.
-/

namespace Verif.Bus

open Verif.Knx

theorem snoc_ind {P : List α → Prop} (h0 : P []) (h1 : ∀ l x, P l → P (l ++ [x])) (l : List α) :
    P l := by
  have : ∀ r : List α, P r.reverse := by
    intro r
    induction r with
    | nil => exact h0
    | cons x r ih => rw [List.reverse_cons]; exact h1 _ _ ih
  have h := this l.reverse
  rwa [List.reverse_reverse] at h

/-- The two devices at the beginning of a transfer. -/
def net0 (ea eb : List Ev) (own : Word) (t : Buf) (len : Nat) : Net :=
  ⟨(step (run boot ea).1 (.queue own t len)).1, (run boot eb).1⟩

theorem Transfer.init {ea eb : List Ev} {own : Word} {t : Buf} {len : Nat}
    {ms ns : List (Who × Ev)} (h : Transfer ea eb own t len (ms ++ ns)) :
    Transfer ea eb own t len ms := by
  obtain ⟨⟨h1, h2, h3⟩, h4, h5⟩ := h
  rw [of_append] at h2 h3
  rw [accepted_append] at h2
  exact ⟨⟨h1, by omega, fun e he => h3 e (List.mem_append_left _ he)⟩, h4, ((line_append ..).1 h5).1⟩

theorem txChars_inj {f g : List Byte} (h : txChars f = txChars g) : f = g := by
  induction f generalizing g with
  | nil =>
    cases g with
    | nil => rfl
    | cons y g => simp [txChars] at h
  | cons x f ih =>
    cases g with
    | nil => simp [txChars] at h
    | cons y g =>
      simp only [txChars, List.map_cons, List.cons.injEq, Out.txChar.injEq] at h
      rw [h.1.1, ih h.2]

theorem repeated_length (f : List Byte) : (repeated f).length = f.length := by
  unfold repeated; split <;> simp

/-- The last occurrence is unique. -/
theorem last_unique [DecidableEq α] {o : α} {p q l m : List α} (h : p ++ o :: l = q ++ o :: m)
    (hl : o ∉ l) (hm : o ∉ m) : p = q ∧ l = m := by
  have h1 := (since_some (l := p ++ o :: l)).2 ⟨p, rfl, hl⟩
  have h2 := (since_some (l := p ++ o :: l)).2 ⟨q, h, hm⟩
  rw [h1] at h2
  have e := Option.some.inj h2
  subst e
  exact ⟨List.append_cancel_right h, rfl⟩

/-- What `b` takes for a telegram is what `a` has just sent: the telegram the first time, its
repetition later. -/
theorem frame_from_a {ea eb : List Ev} {own : Word} {t : Buf} {len : Nat} {ms : List (Who × Ev)}
    {e : Ev} (h : Transfer ea eb own t len (ms ++ [(.b, e)]))
    (hf : FrameEnd (netRun (net0 ea eb own t len) ms).1.b e)
    (hd : isDataFrame (netRun (net0 ea eb own t len) ms).1.b.bus
      ((netRun (net0 ea eb own t len) ms).1.b.bus.valid &&
        (netRun (net0 ea eb own t len) ms).1.b.bus.checksum == 0#8) = true) :
    ∃ p l pre cs, (netRun (net0 ea eb own t len) ms).2 = p ++ (.a, .txBegin) :: l ∧
      (Who.a, Out.txBegin) ∉ l ∧ (Who.a, Out.txEnd) ∈ l ∧ count .rxBegin (of .b l) = 1 ∧
      of .b (netRun (net0 ea eb own t len) ms).2 = pre ++ .rxBegin :: rxChars cs ∧
      bytes (netRun (net0 ea eb own t len) ms).1.b.bus.rx
        (netRun (net0 ea eb own t len) ms).1.b.bus.nextByteIndex =
        if count .txEnd (of .a p) = 0 then frameOf (prepareTelegram own t len)
        else repeated (frameOf (prepareTelegram own t len)) := by
  have hN := netRun_of (net0 ea eb own t len) ms
  have hline := ((line_append ..).1 h.line).2
  have hsend := h.init.sends
  have hrx : RxLog (of .b (netRun (net0 ea eb own t len) ms).2)
      (netRun (net0 ea eb own t len) ms).1.b.bus := by
    rw [hN.2.1, hN.2.2.2]
    have hq : NotRx (net0 ea eb own t len).b.bus := by
      have := h.quiet
      constructor <;> (intro hs; simp only [net0] at hs; rw [hs] at this; rcases this with h | h <;> cases h)
    have := run_log (run_inv boot_inv eb) (hq.log []) (of .b ms)
    rw [List.nil_append] at this
    exact this
  have hlogA : of .a (netRun (net0 ea eb own t len) ms).2 = logOf ea own t len (of .a ms) := hN.2.2.1
  change Line (netRun (net0 ea eb own t len) ms).1 ([] ++ (netRun (net0 ea eb own t len) ms).2) _ at hline
  rw [List.nil_append] at hline
  clear hN
  generalize netRun (net0 ea eb own t len) ms = N at *
  obtain ⟨e, rfl⟩ : ∃ i, e = .irq i := by
    cases e <;> first | exact ⟨_, rfl⟩ | exact absurd hf id
  have hst : N.1.b.bus.st = .waitStart := hf.2.1
  obtain ⟨pre, cs, r1, r2, r3, r4, _⟩ := hrx (Or.inr hst)
  obtain ⟨d1, d2, d3, d4⟩ := isDataFrame_iff.1 hd
  have hrec : received (of .b N.2) = cs := by rw [r1]; exact received_eq pre cs
  have hlen := congrArg List.length r2
  rw [bytes_length, List.length_take, List.length_map] at hlen
  rw [Bool.and_eq_true, r4, beq_iff_eq, r3, r2, fold_zero_iff, List.all_eq_true] at d2
  have hg := hline.1.1 rfl hf
  unfold NoForgedFrame at hg
  rw [hrec] at hg
  obtain ⟨l, post, g1, g2, g3⟩ := hg (by omega) d2.1 d2.2
  obtain ⟨p, p1, p2⟩ := since_some.1 g1
  have hA : of .a N.2 = (of .a p ++ .txBegin :: txChars (cs.map Prod.fst)) ++ .txEnd :: post := by
    rw [p1, of_append]
    show of .a p ++ (.txBegin :: of .a l) = _
    rw [g2]; simp
  obtain ⟨p', hp'⟩ := C14_frames ea _ own t len hsend _ _ (hlogA.symm.trans hA)
  have hno : ∀ f, Out.txBegin ∉ txChars f := by intro f; simp [txChars]
  obtain ⟨q1, q2⟩ := last_unique hp' (hno _) (hno _)
  refine ⟨p, l, pre, cs, p1, p2, ?_, g3, r1, ?_⟩
  · rw [← mem_of, g2]; simp
  · have h23 : (frameOf (prepareTelegram own t len)).length ≤ 23 := by
      rw [frameOf, bytes_length]
      have := telegramSize_le (prepareTelegram own t len)
      omega
    rw [r2, txChars_inj q2, q1]
    split
    · exact List.take_of_length_le h23
    · exact List.take_of_length_le (by rw [repeated_length]; exact h23)

theorem repetition_of (f : List Byte) (h2 : 2 ≤ f.length) : RepetitionOf f (repeated f) := by
  unfold repeated RepetitionOf
  have hx : ∀ x : Byte, x &&& 0x20#8 = 0#8 → x &&& 0xDF#8 = x := by decide +kernel
  by_cases hz : at' f 0 &&& 0x20#8 = 0#8
  · rw [if_pos hz]
    exact ⟨rfl, (hx _ hz).symm, fun _ _ _ => rfl⟩
  · rw [if_neg hz]
    refine ⟨by simp, ?_, ?_⟩
    · simp only [at', List.getD]
      rw [List.getElem?_set_ne (by omega), List.getElem?_set_self (by omega)]
      rfl
    · intro j h1 h3
      simp only [at', List.getD]
      rw [List.getElem?_set_ne (by omega), List.getElem?_set_ne (by omega)]

theorem repetition_of_repeated (f : List Byte) (h2 : 2 ≤ f.length) :
    RepetitionOf (repeated f) (repeated f) := by
  have hx : ∀ x : Byte, x &&& 0xDF#8 = x &&& 0xDF#8 &&& 0xDF#8 := by decide +kernel
  refine ⟨rfl, ?_, fun _ _ _ => rfl⟩
  rw [(repetition_of f h2).2.1]
  exact hx _

theorem delivered_append (l m : List Out) : delivered (l ++ m) = delivered l ++ delivered m := by
  simp [delivered, List.filterMap_append]

theorem delivered_nil {l : List Out} (h : ∀ f, Out.deliver f ∉ l) : delivered l = [] := by
  unfold delivered
  rw [List.filterMap_eq_nil_iff]
  intro o ho
  cases o <;> first | rfl | exact absurd ho (h _)

theorem delivered_mem {l : List Out} {f : List Byte} : f ∈ delivered l ↔ Out.deliver f ∈ l := by
  unfold delivered
  rw [List.mem_filterMap]
  constructor
  · rintro ⟨o, h1, h2⟩
    cases o <;> simp at h2
    subst h2; exact h1
  · intro h; exact ⟨_, h, rfl⟩

theorem lastDelivered_of_delivered (old l : List Out) :
    lastDelivered (old ++ l) = match (delivered l).getLast? with
      | some f => some f
      | none => lastDelivered old := by
  rw [lastDelivered_append]
  have : lastDelivered l = (delivered l).getLast? := by
    induction l using snoc_ind with
    | h0 => rfl
    | h1 l x ih =>
      rw [lastDelivered_append, delivered_append, ih]
      cases x <;> simp [lastDelivered, delivered] <;> cases (delivered l).getLast? <;> rfl
  rw [this]
  cases (delivered l).getLast? <;> rfl

theorem netRun_b_boot (ea eb : List Ev) (own : Word) (t : Buf) (len : Nat) (ms : List (Who × Ev)) :
    (netRun (net0 ea eb own t len) ms).1.b = (run boot (eb ++ of .b ms)).1 ∧
    (run boot (eb ++ of .b ms)).2 = (run boot eb).2 ++ of .b (netRun (net0 ea eb own t len) ms).2 := by
  have h := netRun_of (net0 ea eb own t len) ms
  rw [h.2.1, h.2.2.2, run_append]
  exact ⟨rfl, rfl⟩

/-- Where the one delivery comes from. -/
def Once (f : List Byte) (log : List (Who × Out)) : Prop :=
  delivered (of .b log) = [] ∨ ∃ g p l q, (g = f ∨ g = repeated f) ∧
    delivered (of .b log) = [g] ∧ log = p ++ (.a, .txBegin) :: (l ++ (.b, .deliver g) :: q) ∧
    (Who.a, Out.txBegin) ∉ l ∧ (Who.a, Out.txEnd) ∈ l ∧ count .rxBegin (of .b l) = 1

theorem count_zero {o : Out} {l : List Out} : count o l = 0 ↔ o ∉ l := by
  unfold count
  rw [List.countP_eq_zero]
  constructor
  · intro h hm; exact h _ hm (by simp)
  · intro h x hx hb
    rw [beq_iff_eq] at hb
    exact h (hb ▸ hx)

theorem once (ea eb : List Ev) (own : Word) (t : Buf) (len : Nat) (ms : List (Who × Ev))
    (h : Transfer ea eb own t len ms) :
    Once (frameOf (prepareTelegram own t len)) (netRun (net0 ea eb own t len) ms).2 := by
  induction ms using snoc_ind with
  | h0 => exact Or.inl rfl
  | h1 ms m ih =>
    have ih := ih h.init
    rw [netRun_snoc]
    by_cases hm : m.1 = .b ∧ ∃ g, Out.deliver g ∈ (step (netRun (net0 ea eb own t len) ms).1.b m.2).2
    · obtain ⟨w, e⟩ := m
      obtain ⟨rfl, g, hg⟩ := hm
      simp only at hg
      obtain ⟨k1, k2, k3, k4⟩ := step_deliver hg
      obtain ⟨p, l, pre, cs, f1, f2, f3, f4, f5, f6⟩ := frame_from_a h k1 k2
      rw [← k3] at f6
      have hout : (netStep (netRun (net0 ea eb own t len) ms).1 (.b, e)).2 = [(.b, .deliver g)] := by
        simp [netStep, k4]
      rw [hout]
      have hgc : g = frameOf (prepareTelegram own t len) ∨
          g = repeated (frameOf (prepareTelegram own t len)) := by
        rw [f6]; split
        · exact Or.inl rfl
        · exact Or.inr rfl
      rcases ih with ih | ⟨g0, p0, l0, q0, i1, i2, i3, i4, i5, i6⟩
      · right
        refine ⟨g, p, l, [], hgc, ?_, ?_, f2, f3, f4⟩
        · rw [of_append, delivered_append, ih]; rfl
        · rw [f1]; simp
      · exfalso
        by_cases hq : (Who.a, Out.txBegin) ∈ q0
        · -- a later transmission: a repetition
          obtain ⟨r, hr⟩ : ∃ r, since (Who.a, Out.txBegin) q0 = some r := by
            cases hs : since (Who.a, Out.txBegin) q0 with
            | none => exact absurd hq (since_none.1 hs)
            | some r => exact ⟨r, rfl⟩
          obtain ⟨q1, hq1, hq2⟩ := since_some.1 hr
          have heq : p ++ (Who.a, Out.txBegin) :: l =
              (p0 ++ (.a, .txBegin) :: (l0 ++ (.b, .deliver g0) :: q1)) ++ (.a, .txBegin) :: r := by
            rw [← f1, i3, hq1]; simp
          obtain ⟨hp, _⟩ := last_unique heq f2 hq2
          have hcnt : count .txEnd (of .a p) ≠ 0 := by
            rw [Ne, count_zero, Classical.not_not, mem_of, hp]
            simp [i5]
          rw [if_neg hcnt] at f6
          have hsz : 2 ≤ (frameOf (prepareTelegram own t len)).length := by
            rw [frameOf, bytes_length, telegramSize]; omega
          obtain ⟨b1, b2⟩ := netRun_b_boot ea eb own t len ms
          obtain ⟨i, rfl⟩ : ∃ i, e = .irq i := by
            cases e <;> first | exact ⟨_, rfl⟩ | exact absurd k1 id
          rw [b1] at hg
          refine C12_no_duplicate _ i g0 g ?_ hg ?_
          · rw [b2, lastDelivered_of_delivered, i2]; rfl
          · rw [f6]
            rcases i1 with rfl | rfl
            · exact repetition_of _ hsz
            · exact repetition_of_repeated _ hsz
        · -- the same transmission: a second reception of it
          have heq : p ++ (Who.a, Out.txBegin) :: l =
              p0 ++ (Who.a, Out.txBegin) :: (l0 ++ (.b, .deliver g0) :: q0) := by
            rw [← f1, i3]
          obtain ⟨_, hl⟩ := last_unique heq f2 (by simp [i4, hq])
          have hq0 : Out.rxBegin ∉ of .b q0 := by
            have hb : of .b l = of .b l0 ++ .deliver g0 :: of .b q0 := by
              rw [hl, of_append]; rfl
            rw [hb, count_append, i6] at f4
            have hz : count .rxBegin (Out.deliver g0 :: of .b q0) = 0 := by omega
            intro hx
            exact count_zero.1 hz (List.mem_cons_of_mem _ hx)
          have hb : of .b (netRun (net0 ea eb own t len) ms).2 =
              of .b (p0 ++ (Who.a, Out.txBegin) :: l0) ++ .deliver g0 :: of .b q0 := by
            rw [i3, show p0 ++ (Who.a, Out.txBegin) :: (l0 ++ (.b, .deliver g0) :: q0) =
              (p0 ++ (Who.a, Out.txBegin) :: l0) ++ (.b, .deliver g0) :: q0 from by simp, of_append]
            rfl
          rw [f5] at hb
          generalize of .b (p0 ++ (Who.a, Out.txBegin) :: l0) = x at hb
          cases hs : since Out.rxBegin x with
          | none =>
            have : Out.rxBegin ∈ pre ++ .rxBegin :: rxChars cs := by simp
            rw [hb] at this
            simp [since_none.1 hs, hq0] at this
          | some y =>
            obtain ⟨x1, rfl, hy⟩ := since_some.1 hs
            have heq2 : pre ++ Out.rxBegin :: rxChars cs =
                x1 ++ .rxBegin :: (y ++ .deliver g0 :: of .b q0) := by rw [hb]; simp
            obtain ⟨_, e2⟩ := last_unique heq2 (rxBegin_not_rxChars cs) (by simp [hy, hq0])
            have : Out.deliver g0 ∈ rxChars cs := by rw [e2]; simp
            simp [rxChars] at this
    · have hn : delivered (of .b (netStep (netRun (net0 ea eb own t len) ms).1 m).2) = [] := by
        rw [(netStep_of _ m).2.1]
        split
        · next hw => exact delivered_nil fun g hg => hm ⟨hw, g, hg⟩
        · rfl
      rcases ih with ih | ⟨g0, p0, l0, q0, i1, i2, i3, i4⟩
      · left; rw [of_append, delivered_append, ih, hn]; rfl
      · right
        refine ⟨g0, p0, l0, q0 ++ (netStep (netRun (net0 ea eb own t len) ms).1 m).2, i1, ?_, ?_, i4⟩
        · rw [of_append, delivered_append, i2, hn]; rfl
        · rw [i3]; simp

/-- C85. Whatever the line loses and however often the telegram is repeated, the application of the
partner gets it at most once, and gets nothing else. -/
theorem C85_at_most_once (ea eb : List Ev) (own : Word) (t : Buf) (len : Nat)
    (ms : List (Who × Ev)) (h : Transfer ea eb own t len ms) :
    delivered (of .b (transferLog ea eb own t len ms)) = [] ∨
    delivered (of .b (transferLog ea eb own t len ms)) = [frameOf (prepareTelegram own t len)] ∨
    delivered (of .b (transferLog ea eb own t len ms)) =
      [repeated (frameOf (prepareTelegram own t len))] := by
  rcases once ea eb own t len ms h with h | ⟨g, _, _, _, rfl | rfl, hg, _⟩
  · exact Or.inl h
  · exact Or.inr (Or.inl hg)
  · exact Or.inr (Or.inr hg)

/-! ## Success -/

theorem newMessage_first {last : Option (List Byte)} {f : List Byte}
    (h : NewMessage last (repeated f)) : NewMessage last f := by
  by_cases hz : at' f 0 &&& 0x20#8 = 0#8
  · unfold repeated at h
    rwa [if_pos hz] at h
  · exact Or.inl hz

/-- What holds during a transfer if the partner's last telegram was another one. -/
structure Good (s : Net) (log : List (Who × Out)) : Prop where
  about : s.b.bus.st = .waitAckTx → delivered (of .b log) ≠ []
  acked : (Who.b, Out.ackBegin) ∈ log → delivered (of .b log) ≠ []
  genuine : NoForgedAck log
  success : Out.finished true ∈ of .a log → (Who.b, Out.ackBegin) ∈ log

theorem noForgedAck_b {log : List (Who × Out)} (h : NoForgedAck log) (outs : List Out) :
    NoForgedAck (log ++ outs.map fun o => (Who.b, o)) := by
  intro l hl ha
  obtain ⟨p, hp, hn⟩ := since_some.1 hl
  have hmem : (Who.a, Out.txEnd) ∈ log := by
    have : (Who.a, Out.txEnd) ∈ log ++ outs.map fun o => (Who.b, o) := by rw [hp]; simp
    simpa using this
  obtain ⟨r, hr⟩ : ∃ r, since (Who.a, Out.txEnd) log = some r := by
    cases hs : since (Who.a, Out.txEnd) log with
    | none => exact absurd hmem (since_none.1 hs)
    | some r => exact ⟨r, rfl⟩
  obtain ⟨q, hq, hm⟩ := since_some.1 hr
  have heq : p ++ (Who.a, Out.txEnd) :: l = q ++ (Who.a, Out.txEnd) :: (r ++ outs.map fun o => (Who.b, o)) := by
    rw [← hp, hq]; simp
  obtain ⟨_, rfl⟩ := last_unique heq hn (by simp [hm])
  rw [of_append, of_map, if_neg (by decide), List.append_nil] at ha
  exact List.mem_append_left _ (h r hr ha)

theorem good {ea eb : List Ev} {own : Word} {t : Buf} {len : Nat} {ms : List (Who × Ev)}
    (h : Transfer ea eb own t len ms)
    (hnew : NewMessage (lastDelivered (run boot eb).2)
      (repeated (frameOf (prepareTelegram own t len)))) :
    Good (netRun (net0 ea eb own t len) ms).1 (netRun (net0 ea eb own t len) ms).2 := by
  induction ms using snoc_ind with
  | h0 =>
    refine ⟨?_, ?_, ?_, ?_⟩
    · intro hs
      have hq := h.quiet
      simp only [netRun, net0] at hs
      rw [hs] at hq
      rcases hq with hq | hq <;> cases hq
    · intro hm; simp [netRun] at hm
    · intro l hl; simp [netRun, since] at hl
    · intro hm; simp [netRun, of] at hm
  | h1 ms m ih =>
    have ih := ih h.init
    have hline := ((line_append ..).1 h.line).2
    have hline := hline.1
    rw [List.nil_append] at hline
    change LineStep (netRun (net0 ea eb own t len) ms).1 (netRun (net0 ea eb own t len) ms).2 m at hline
    obtain ⟨w, e⟩ := m
    rw [netRun_snoc]
    cases w with
    | a =>
      have hN := netRun_of (net0 ea eb own t len) ms
      have hdel : ∀ l : List Out, of .b (l.map fun o => (Who.a, o)) = [] := by
        intro l; rw [of_map, if_neg (by decide)]
      refine ⟨?_, ?_, hline.2 rfl, ?_⟩
      · intro hs
        simp only [netStep]
        rw [of_append, hdel, List.append_nil]
        exact ih.about hs
      · intro hm
        simp only [netStep] at hm ⊢
        rw [of_append, hdel, List.append_nil]
        exact ih.acked (by simpa using hm)
      · intro hm
        simp only [netStep] at hm ⊢
        rw [of_append, of_map, if_pos rfl] at hm
        rcases List.mem_append.1 hm with hm | hm
        · exact List.mem_append_left _ (ih.success hm)
        · refine List.mem_append_left _ ?_
          have hi0 : SysInv (net0 ea eb own t len).a := step_inv (run_inv boot_inv ea) _
          have hn0 : NoRetryErr (net0 ea eb own t len).a.bus :=
            step_err _ _ (run_err boot ea boot_err)
          have hack0 : AckLog [] (net0 ea eb own t len).a.bus := by
            intro hw
            exfalso
            have hfree := h.sends.free
            have hi := (run_inv boot_inv ea).inv
            have hw' : (run boot ea).1.bus.waitForAck = true := by
              have : (net0 ea eb own t len).a.bus.waitForAck = (run boot ea).1.bus.waitForAck := by
                simp only [net0, step]
                split <;> rfl
              rw [← this]; exact hw
            have := (hi.waitSt hw').2
            rw [hfree] at this
            cases this
          have hack := run_ackLog hi0 hn0 hack0 (of .a ms)
          rw [List.nil_append, ← hN.2.2.1, ← hN.1] at hack
          have hrx : RxLog ((run boot (ea ++ [.queue own t len])).2 ++
              of .a (netRun (net0 ea eb own t len) ms).2)
              (netRun (net0 ea eb own t len) ms).1.a.bus := by
            have := boot_log (ea ++ [.queue own t len] ++ of .a ms)
            rw [run_append] at this
            have e1 : (run boot (ea ++ [.queue own t len])).1 = (net0 ea eb own t len).a := by
              rw [run_append]; rfl
            rw [e1, ← hN.2.2.1, ← hN.1] at this
            exact this
          obtain ⟨pre, hp⟩ := success_acknowledged (hN.1 ▸ run_inv hi0 _)
            (by rw [hN.1]; exact run_err _ _ hn0) hack hrx e hm
          have hmem : (Who.a, Out.txEnd) ∈ (netRun (net0 ea eb own t len) ms).2 := by
            rw [← mem_of, hp]; simp
          obtain ⟨r, hr⟩ : ∃ r, since (Who.a, Out.txEnd) (netRun (net0 ea eb own t len) ms).2 = some r := by
            cases hs : since (Who.a, Out.txEnd) (netRun (net0 ea eb own t len) ms).2 with
            | none => exact absurd hmem (since_none.1 hs)
            | some r => exact ⟨r, rfl⟩
          obtain ⟨q, hq, hqn⟩ := since_some.1 hr
          have heq : of .a q ++ Out.txEnd :: of .a r = pre ++ .txEnd :: [.rxBegin, .rxChar 0xcc#8 true] := by
            rw [← hp, hq, of_append]; rfl
          obtain ⟨_, hof⟩ := last_unique heq (by rwa [mem_of]) (by simp)
          have := ih.genuine r hr hof
          rw [hq]
          simp [this]
    | b =>
      have hb : ∀ l : List Out, of .b (l.map fun o => (Who.b, o)) = l := by
        intro l; rw [of_map, if_pos rfl]
      have mono : delivered (of .b (netRun (net0 ea eb own t len) ms).2) ≠ [] →
          delivered (of .b ((netRun (net0 ea eb own t len) ms).2 ++
            (netStep (netRun (net0 ea eb own t len) ms).1 (.b, e)).2)) ≠ [] := by
        intro h1 h2
        rw [of_append, delivered_append, List.append_eq_nil_iff] at h2
        exact h1 h2.1
      refine ⟨?_, ?_, noForgedAck_b ih.genuine _, ?_⟩
      · intro hs
        simp only [netStep] at hs
        obtain ⟨b1, b2⟩ := netRun_b_boot ea eb own t len ms
        have hinv : SysInv (netRun (net0 ea eb own t len) ms).1.b := by
          rw [b1]; exact run_inv boot_inv _
        rcases step_waitAckTx hinv hs with h0 | ⟨k1, k2, k3⟩
        · exact mono (ih.about h0)
        · rcases k3 with k3 | k3
          · by_cases hd : delivered (of .b (netRun (net0 ea eb own t len) ms).2) = []
            · exfalso
              obtain ⟨p, l, pre, cs, f1, f2, f3, f4, f5, f6⟩ := frame_from_a h k1 k2
              have hlast : lastDelivered (run boot (eb ++ of .b ms)).2 = lastDelivered (run boot eb).2 := by
                rw [b2, lastDelivered_of_delivered, hd]; rfl
              have hno := not_alreadyReceived (b := (netRun (net0 ea eb own t len) ms).1.b.bus)
                (log := (run boot (eb ++ of .b ms)).2) (isDataFrame_iff.1 k2).1
                (by rw [b1]; exact boot_tel _) (by rw [b1]; exact boot_empty _)
                (by
                  unfold StandardData
                  rw [at'_bytes _ _ _ (by have := (isDataFrame_iff.1 k2).1; omega)]
                  exact (isDataFrame_iff.1 k2).2.2.1)
                (by
                  rw [hlast, f6]
                  split
                  · exact newMessage_first hnew
                  · exact hnew)
              rw [hno] at k3
              cases k3
            · exact mono hd
          · intro h2
            simp only [netStep] at h2
            rw [of_append, hb, k3, delivered_append, List.append_eq_nil_iff] at h2
            cases h2.2
      · intro hm
        rcases List.mem_append.1 hm with hm | hm
        · exact mono (ih.acked hm)
        · apply mono
          apply ih.about
          rw [← mem_of] at hm
          simp only [netStep] at hm
          rw [hb] at hm
          exact step_ackBegin hm
      · intro hm
        simp only [netStep] at hm
        rw [of_append, of_map, if_neg (by decide), List.append_nil] at hm
        exact List.mem_append_left _ (ih.success hm)

/-- C85. If the sender is told that the telegram was sent, then the application of the partner has
got it, exactly once - unless what the partner got before the transfer could pass for the same
telegram (see C12: then the repetition is acknowledged and dropped).

Partial: the hypothesis `hnew` is missing from the property as one would like to have it. -/
theorem C85_success_means_delivered_partial (ea eb : List Ev) (own : Word) (t : Buf) (len : Nat)
    (ms : List (Who × Ev)) (h : Transfer ea eb own t len ms)
    (hnew : NewMessage (lastDelivered (run boot eb).2)
      (repeated (frameOf (prepareTelegram own t len))))
    (hfin : Out.finished true ∈ of .a (transferLog ea eb own t len ms)) :
    delivered (of .b (transferLog ea eb own t len ms)) = [frameOf (prepareTelegram own t len)] ∨
    delivered (of .b (transferLog ea eb own t len ms)) =
      [repeated (frameOf (prepareTelegram own t len))] := by
  have hg := good h hnew
  have := hg.acked (hg.success hfin)
  rcases C85_at_most_once ea eb own t len ms h with h | h
  · exact absurd h this
  · exact h

/-! ## Demonstration -/

instance (s : Sys) (e : Ev) : Decidable (FrameEnd s e) := by
  cases e <;> (simp only [FrameEnd]; exact inferInstance)

theorem noForgedFrame_iff (log : List (Who × Out)) : NoForgedFrame log ↔
    (8 ≤ (received (of .b log)).length → (∀ c ∈ received (of .b log), c.2 = true) →
    ChecksumOk (((received (of .b log)).map Prod.fst).take 23) →
    ∃ l ∈ since (.a, .txBegin) log,
      txChars ((received (of .b log)).map Prod.fst) ++ [.txEnd] <+: of .a l ∧
      count .rxBegin (of .b l) = 1) := by
  unfold NoForgedFrame
  constructor
  · intro h h1 h2 h3
    obtain ⟨l, post, k1, k2, k3⟩ := h h1 h2 h3
    exact ⟨l, k1, ⟨post, by rw [k2]; simp⟩, k3⟩
  · intro h h1 h2 h3
    obtain ⟨l, k1, ⟨post, k2⟩, k3⟩ := h h1 h2 h3
    exact ⟨l, post, k1, by rw [← k2]; simp, k3⟩

instance (log : List (Who × Out)) : Decidable (NoForgedFrame log) :=
  decidable_of_iff _ (noForgedFrame_iff log).symm

instance (log : List (Who × Out)) : Decidable (NoForgedAck log) :=
  decidable_of_iff (∀ l ∈ since (Who.a, Out.txEnd) log, of .a l = [.rxBegin, .rxChar 0xcc#8 true] →
    (Who.b, Out.ackBegin) ∈ l) Iff.rfl

instance (s : Net) (log : List (Who × Out)) (m : Who × Ev) : Decidable (LineStep s log m) :=
  inferInstanceAs (Decidable (_ ∧ _))

instance lineDecidable : (s : Net) → (log : List (Who × Out)) → (ms : List (Who × Ev)) →
    Decidable (Line s log ms)
  | _, _, [] => isTrue trivial
  | s, log, m :: ms =>
    have := lineDecidable (netStep s m).1 (log ++ (netStep s m).2) ms
    inferInstanceAs (Decidable (LineStep s log m ∧ _))

def kA (es : List Ev) : List (Who × Ev) := es.map fun e => (Who.a, e)
def kB (es : List Ev) : List (Who × Ev) := es.map fun e => (Who.b, e)

/-- The group telegram `dTel` without sender address and check octet. -/
def kTel : Buf := ofList [0xBC, 0, 0, 0x08, 0x01, 0xE1, 0x00, 0x81]

example : frameOf (prepareTelegram 0x1102#16 kTel 8) = dTel := by decide +kernel

/-- The telegram arrives and is acknowledged, but the acknowledgement gets lost; the repetition
arrives and the acknowledgement of it is heard. -/
def kAckLost : List (Who × Ev) :=
  kA (.kick :: dSilence 77) ++ kB (dFrame dTel ++ dSilence 12 ++ [.discard]) ++
  kA (dSilence 81) ++ kB (dFrame dTelRep ++ dSilence 12) ++ kA (dAck ++ [.irq dTimeout])

theorem kAckLost_transfer : Transfer dReady dReady 0x1102#16 kTel 8 kAckLost where
  sends := ⟨by decide +kernel, by decide +kernel, by decide +kernel⟩
  quiet := by decide +kernel
  line := by decide +kernel

example := C85_at_most_once _ _ _ _ _ _ kAckLost_transfer

example : delivered (of .b (transferLog dReady dReady 0x1102#16 kTel 8 kAckLost)) = [dTel] ∧
    count .txEnd (of .a (transferLog dReady dReady 0x1102#16 kTel 8 kAckLost)) = 2 := by
  decide +kernel

example := C85_success_means_delivered_partial _ _ _ _ _ _ kAckLost_transfer
  (Or.inr (fun f hf => absurd hf (by rw [show lastDelivered (run boot dReady).2 = none by decide +kernel]; simp)))
  (by decide +kernel)

/-- The same telegram was sent before and arrived.  Now the first transmission is damaged (a parity
error in the last character) and the repetition arrives. -/
def kSameAgain : List (Who × Ev) :=
  kA (.kick :: dSilence 77) ++
  kB ((dTel.take 8).flatMap (fun b => dChar b (parityBit b)) ++ dChar 0x39 (!parityBit 0x39) ++
    dSilence 12) ++
  kA (dSilence 81) ++ kB (dFrame dTelRep ++ dSilence 12) ++ kA (dAck ++ [.irq dTimeout])

/-- C85 (finding). Without the hypothesis on the partner's last telegram the claim is false: a sender
that sends the same telegram again after some time is told that it was sent, and the application of
the partner never gets it. -/
theorem C85_success_without_delivery :
    ∃ eb ms, Transfer dReady eb 0x1102#16 kTel 8 ms ∧
      Out.finished true ∈ of .a (transferLog dReady eb 0x1102#16 kTel 8 ms) ∧
      delivered (of .b (transferLog dReady eb 0x1102#16 kTel 8 ms)) = [] :=
  ⟨dReceive ++ dSilence 12 ++ [.discard], kSameAgain,
    ⟨⟨by decide +kernel, by decide +kernel, by decide +kernel⟩, by decide +kernel, by decide +kernel⟩,
    by decide +kernel, by decide +kernel⟩

/-- C85 (finding). The device remembers one telegram only: if another sender's telegram arrives
between a telegram and its repetition, then the application gets the repeated telegram twice. -/
theorem C85_other_sender_duplicate :
    ∃ es g, g ≠ dTel ∧ g ≠ dTelRep ∧ repeated dTel = dTelRep ∧
      delivered (run boot es).2 = [dTel, g, dTelRep] :=
  ⟨dReceive ++ dSilence 12 ++ [.discard] ++ dFrame [0xBC, 0x11, 0x03, 0x08, 0x01, 0xE1, 0x00, 0x80, 0x39]
    ++ dSilence 12 ++ [.discard] ++ dFrame dTelRep,
    [0xBC, 0x11, 0x03, 0x08, 0x01, 0xE1, 0x00, 0x80, 0x39], by decide, by decide, by decide, by decide +kernel⟩

end Verif.Bus
