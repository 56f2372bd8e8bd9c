import Verif.Bus.TimeSpec
import Verif.Bus.PropsChar
import Verif.Bus.PropsArb

/-!
# Lemmas for the timing between two devices
-/

namespace Verif.Bus

open Verif.Knx

theorem hear_add (a : Around) (m n z : Nat) (b : Bus) (es : List Nat) :
    hear a (m + n) z b es =
      ((hear a m z b es).1 ++
        (hear a n (hear a m z b es).2.1 (hear a m z b es).2.2.1 (hear a m z b es).2.2.2).1,
       (hear a n (hear a m z b es).2.1 (hear a m z b es).2.2.1 (hear a m z b es).2.2.2).2) := by
  induction m generalizing z b es with
  | zero => simp [hear]
  | succ m ih =>
    rw [show m + 1 + n = (m + n) + 1 by omega]
    simp only [hear, ih, List.append_assoc]

theorem hear_one (a : Around) (z : Nat) (b : Bus) (es : List Nat) :
    hear a 1 z b es = hearStep a z b es := by
  simp [hear]

theorem hearStep_edge (a : Around) (z : Nat) (b : Bus) (k : Nat) (ks : List Nat)
    (h : k < z + b.mTime ∨ b.tInt = false) (hc : b.capInt = true) :
    hearStep a z b (k :: ks) =
      ((isr (edgeIrq a z b k) b).2,
       zeroAt z (k + a.late k) (isr (edgeIrq a z b k) b).1.tSet, (isr (edgeIrq a z b k) b).1, ks) := by
  simp only [hearStep, if_pos h, hc, if_true]

theorem hearStep_match (a : Around) (z : Nat) (b : Bus) (es : List Nat) (ht : b.tInt = true)
    (h : ∀ k, es.head? = some k → z + b.mTime ≤ k) :
    hearStep a z b es =
      ((isr (matchIrq a z b) b).2,
       zeroAt (if b.tReset then z + b.mTime + 1 else z) (z + b.mTime + a.late (z + b.mTime))
         (isr (matchIrq a z b) b).1.tSet, (isr (matchIrq a z b) b).1, es) := by
  cases es with
  | nil => simp only [hearStep, ht, if_true]
  | cons k ks =>
    have := h k rfl
    simp only [hearStep]
    rw [if_neg (by rw [ht]; simp; omega)]

/-- The timer part of the state. -/
def timerOf (b : Bus) := (b.mTime, b.tInt, b.tReset, b.capInt, b.tSet)

theorem start_isr {i : Irq} {b : Bus}
    (hs : b.st = .waitStart ∨ b.st = .idle ∨ b.st = .wait50 ∨ b.st = .waitAck)
    (hc : i.cap = true) (hn : i.spike = false) :
    (isr i b).1.st = .recvBits ∧
    timerOf (isr i b).1 = (1143, true, true, true,
      some ((if i.capVal ≤ i.now then i.now - i.capVal else b.mTime + 1 - i.capVal + i.now) + 2)) := by
  rw [isr_noSpike hn]
  rcases hs with h | h | h | h
  · simp only [dispatch, h, waitStart, hc, Bool.not_true, Bool.false_eq_true, if_false]
    exact ⟨trivial, rfl⟩
  · simp only [dispatch, h, hc, if_true, initRx, waitStart, Bool.not_true, Bool.false_eq_true,
      if_false]
    exact ⟨trivial, rfl⟩
  · simp only [dispatch, h, wait50, hc, if_true, initRx, waitStart, Bool.not_true,
      Bool.false_eq_true, if_false]
    exact ⟨trivial, rfl⟩
  · simp only [dispatch, h, waitAck, hc, if_true, initRx, waitStart, Bool.not_true,
      Bool.false_eq_true, if_false]
    exact ⟨trivial, rfl⟩

theorem edge_isr {i : Irq} {b : Bus} (hs : b.st = .recvBits) (ht : i.tmo = false)
    (hn : i.spike = false) :
    (isr i b).1.st = .recvBits ∧
    timerOf (isr i b).1 = (b.mTime, b.tInt, b.tReset, b.capInt, none) := by
  rw [isr_noSpike hn]
  simp only [dispatch, hs, recvBits, ht, Bool.false_eq_true, if_false]
  split <;> exact ⟨rfl, rfl⟩

theorem fin_isr {i : Irq} {b : Bus} (hs : b.st = .recvBits) (ht : i.tmo = true)
    (hn : i.spike = false) :
    timerOf (isr i b).1 = (237, true, false, true, none) := by
  rw [isr_noSpike hn]
  simp only [dispatch, hs, recvBits, ht, if_true, endOfChar]
  split <;> rfl

theorem step_isr (b : Bus) (i : Irq) :
    step ⟨b, false⟩ (.irq i) = (⟨(isr i b).1, false⟩, (isr i b).2) := rfl

theorem timerOf_eq {b : Bus} {m : Nat} {x y w : Bool} {o : Option Nat}
    (h : timerOf b = (m, x, y, w, o)) :
    b.mTime = m ∧ b.tInt = x ∧ b.tReset = y ∧ b.capInt = w ∧ b.tSet = o := by
  simp only [timerOf, Prod.mk.injEq] at h
  exact h

/-- Edges within a character. -/
theorem hear_edges (a : Around) (z : Nat) (xs rest : List Nat) (hx : ∀ x ∈ xs, x < z + 1143)
    (b : Bus) (hs : b.st = .recvBits) (hm : b.mTime = 1143) (hi : b.tInt = true)
    (hr : b.tReset = true) (hc : b.capInt = true) :
    ∃ es : List Irq, es.map (·.capVal) = xs.map (· - z) ∧
      (∀ e ∈ es, e.cap = true ∧ e.tmo = false ∧ e.spike = false) ∧
      hear a xs.length z b (xs ++ rest) =
        ((run ⟨b, false⟩ (es.map .irq)).2, z, (run ⟨b, false⟩ (es.map .irq)).1.bus, rest) ∧
      (run ⟨b, false⟩ (es.map .irq)).1.paused = false ∧
      (run ⟨b, false⟩ (es.map .irq)).1.bus.st = .recvBits ∧
      (run ⟨b, false⟩ (es.map .irq)).1.bus.mTime = 1143 ∧
      (run ⟨b, false⟩ (es.map .irq)).1.bus.tInt = true ∧
      (run ⟨b, false⟩ (es.map .irq)).1.bus.tReset = true := by
  induction xs generalizing b with
  | nil => exact ⟨[], rfl, by simp, rfl, rfl, hs, hm, hi, hr⟩
  | cons x xs ih =>
    have hx0 := hx x (List.mem_cons_self ..)
    obtain ⟨q1, q2⟩ := edge_isr (i := edgeIrq a z b x) hs rfl rfl
    obtain ⟨t1, t2, t3, t4, t5⟩ := timerOf_eq q2
    obtain ⟨es, e1, e2, e3, e4, e5, e6, e7, e8⟩ := ih (fun y hy => hx y (List.mem_cons_of_mem _ hy))
      (isr (edgeIrq a z b x) b).1 q1 (t1.trans hm) (t2.trans hi) (t3.trans hr) (t4.trans hc)
    refine ⟨edgeIrq a z b x :: es, ?_, ?_, ?_, ?_⟩
    · rw [List.map_cons, List.map_cons, e1]; rfl
    · intro e he
      rcases List.mem_cons.1 he with rfl | he
      · exact ⟨rfl, rfl, rfl⟩
      · exact e2 e he
    · simp only [List.length_cons, List.cons_append, hear]
      rw [hearStep_edge a z b x (xs ++ rest) (Or.inl (by omega)) hc, t5]
      simp only [zeroAt, e3, List.map_cons, run, step_isr]
    · simp only [List.map_cons, run, step_isr]
      exact ⟨e4, e5, e6, e7, e8⟩

/-- A character whose start bit is captured at time `k`. -/
theorem hear_char (a : Around) (ha : ∀ t, a.late t ≤ 200) (z k : Nat) (xs rest : List Nat) (b : Bus)
    (hs : b.st = .waitStart ∨ b.st = .idle ∨ b.st = .wait50 ∨ b.st = .waitAck)
    (hc : b.capInt = true) (h1 : k < z + b.mTime ∨ b.tInt = false) (hz : z ≤ k) (h2 : 2 ≤ k)
    (hm : b.tReset = true → k - z ≤ b.mTime ∧ 200 ≤ b.mTime)
    (hx : ∀ x ∈ xs, x < k + 1141) (hrest : ∀ y, rest.head? = some y → k + 1141 ≤ y) :
    ∃ c : CharIrqs, (c.start.cap = true ∧ c.start.spike = false ∧ c.fin.tmo = true ∧
        c.fin.spike = false ∧ c.edges.map (·.capVal) = xs.map (· - (k - 2)) ∧
        ∀ e ∈ c.edges, e.cap = true ∧ e.tmo = false ∧ e.spike = false) ∧
      hear a (xs.length + 2) z b (k :: (xs ++ rest)) =
        ((run ⟨b, false⟩ c.events).2, k + 1142, (run ⟨b, false⟩ c.events).1.bus, rest) ∧
      (run ⟨b, false⟩ c.events).1.paused = false ∧
      timerOf (run ⟨b, false⟩ c.events).1.bus = (237, true, false, true, none) := by
  have hk := ha k
  obtain ⟨q1, q2⟩ := start_isr (i := edgeIrq a z b k) hs rfl rfl
  obtain ⟨t1, t2, t3, t4, t5⟩ := timerOf_eq q2
  have hdt : (if (edgeIrq a z b k).capVal ≤ (edgeIrq a z b k).now
      then (edgeIrq a z b k).now - (edgeIrq a z b k).capVal
      else b.mTime + 1 - (edgeIrq a z b k).capVal + (edgeIrq a z b k).now) = a.late k := by
    simp only [edgeIrq]
    by_cases hw : b.tReset = true ∧ b.mTime < k - z + a.late k
    · obtain ⟨m1, m2⟩ := hm hw.1
      simp only [if_pos hw]
      rw [if_neg (by omega)]
      omega
    · simp only [if_neg hw]
      rw [if_pos (by omega)]
      omega
  rw [hdt] at t5
  obtain ⟨es, e1, e2, e3, e4, e5, e6, e7, e8⟩ := hear_edges a (k - 2) xs rest
    (fun x hh => by have := hx x hh; omega) (isr (edgeIrq a z b k) b).1 q1 t1 t2 t3 t4
  generalize hB : (run ⟨(isr (edgeIrq a z b k) b).1, false⟩ (es.map .irq)).1.bus = B at *
  have hS : (run ⟨(isr (edgeIrq a z b k) b).1, false⟩ (es.map .irq)).1 = ⟨B, false⟩ := by
    rw [sys_eta e4, hB]
  have q3 := fin_isr (i := matchIrq a (k - 2) B) e5 rfl rfl
  obtain ⟨u1, u2, u3, u4, u5⟩ := timerOf_eq q3
  have hrun : run ⟨b, false⟩
      (CharIrqs.events ⟨edgeIrq a z b k, es, matchIrq a (k - 2) B⟩) =
      (⟨(isr (matchIrq a (k - 2) B) B).1, false⟩, (isr (edgeIrq a z b k) b).2 ++
        ((run ⟨(isr (edgeIrq a z b k) b).1, false⟩ (es.map .irq)).2 ++
          (isr (matchIrq a (k - 2) B) B).2)) := by
    simp only [CharIrqs.events, run, step_isr, run_append, hS, List.append_nil]
  refine ⟨⟨edgeIrq a z b k, es, matchIrq a (k - 2) B⟩, ⟨rfl, rfl, rfl, rfl, e1, e2⟩, ?_, ?_, ?_⟩
  · rw [show xs.length + 2 = 1 + (xs.length + 1) by omega, hear_add, hear_one,
      hearStep_edge a z b k (xs ++ rest) h1 hc, hear_add, t5]
    simp only [zeroAt]
    rw [show k + a.late k - (a.late k + 2) = k - 2 by omega, e3]
    simp only [hear_one]
    rw [hearStep_match a (k - 2) B rest e7 (fun y hy => by have := hrest y hy; omega), u5]
    simp only [zeroAt, e8, if_true, hrun, e6]
    rw [show k - 2 + 1143 + 1 = k + 1142 by omega]
  · rw [hrun]
  · rw [hrun]; exact q3

/-- The edges of a frame whose first start bit is at time `s`. -/
def frameEdges (s : Nat) : List Byte → List (List Nat)
  | [] => []
  | c :: cs => charEdges s c :: frameEdges (s + 1353) cs

theorem zeroSlots_le (c : Byte) : ∀ n ∈ zeroSlots c (parityBit c), 1 ≤ n ∧ n ≤ 9 := by
  decide +revert

theorem charIrqs_of {s k : Nat} {c : Byte} {xs : List Nat} {ci : CharIrqs} (h2 : 2 ≤ k)
    (hh : HeardChar 25 (charEdges s c) (k :: xs))
    (h : ci.start.cap = true ∧ ci.start.spike = false ∧ ci.fin.tmo = true ∧
        ci.fin.spike = false ∧ ci.edges.map (·.capVal) = xs.map (· - (k - 2)) ∧
        ∀ e ∈ ci.edges, e.cap = true ∧ e.tmo = false ∧ e.spike = false) :
    ci.Of c (parityBit c) := by
  obtain ⟨c1, c2, c3, c4, c5, c6⟩ := h
  obtain ⟨l1, l2⟩ := hh
  refine ⟨c1, c2, ?_, c3, c4⟩
  have hlen : ci.edges.length = xs.length := by simpa using congrArg List.length c5
  have hl : xs.length = (zeroSlots c (parityBit c)).length := by
    simpa [charEdges] using l1
  apply captured_of_get _ _ (hlen.trans hl)
  intro j j1 j2
  obtain ⟨d1, d2, d3⟩ := c6 _ (List.getElem_mem j1)
  have hz := zeroSlots_le c _ (List.getElem_mem j2)
  have hcv : ci.edges[j].capVal = xs[j]'(by omega) - (k - 2) := by
    have := congrArg (fun l => l[j]?) c5
    simpa [List.getElem?_eq_getElem j1, List.getElem?_eq_getElem (show j < xs.length by omega)]
      using this
  have hg := l2 (j + 1) (by simp [charEdges]; omega)
  simp only [SameGap, charEdges, List.getD_cons_zero, List.getD_cons_succ] at hg
  rw [List.getD_eq_getElem?_getD, List.getElem?_map, List.getElem?_eq_getElem j2,
    List.getD_eq_getElem?_getD, List.getElem?_eq_getElem (show j < xs.length by omega)] at hg
  simp only [Option.map_some, Option.getD_some] at hg
  obtain ⟨g1, g2⟩ := hg
  exact ⟨d1, d2, d3, by omega, by omega⟩

theorem heard_bound {s k : Nat} {c : Byte} {xs : List Nat}
    (hh : HeardChar 25 (charEdges s c) (k :: xs)) : ∀ x ∈ xs, x < k + 1141 := by
  obtain ⟨l1, l2⟩ := hh
  intro x hx
  obtain ⟨j, j1, rfl⟩ := List.getElem_of_mem hx
  have hl : xs.length = (zeroSlots c (parityBit c)).length := by
    simpa [charEdges] using l1
  have hg := l2 (j + 1) (by simp [charEdges]; omega)
  have j2 : j < (zeroSlots c (parityBit c)).length := by omega
  have hz := zeroSlots_le c _ (List.getElem_mem j2)
  simp only [SameGap, charEdges, List.getD_cons_zero, List.getD_cons_succ] at hg
  rw [List.getD_eq_getElem?_getD, List.getElem?_map, List.getElem?_eq_getElem j2,
    List.getD_eq_getElem?_getD, List.getElem?_eq_getElem j1] at hg
  simp only [Option.map_some, Option.getD_some] at hg
  omega

theorem heardChar_cons {tol s : Nat} {c : Byte} {h : List Nat}
    (hh : HeardChar tol (charEdges s c) h) : ∃ k xs, h = k :: xs := by
  cases h with
  | nil => simp [HeardChar, charEdges] at hh
  | cons k xs => exact ⟨k, xs, rfl⟩

/-- The characters after the first one. -/
theorem hear_chars (a : Around) (ha : ∀ t, a.late t ≤ 200) (bs : List Byte) (p p' : Nat)
    (hs : List (List Nat)) (hh : HeardFrom 25 p p' (frameEdges (p + 1353) bs) hs) (b : Bus)
    (hst : b.st = .waitStart) (ht : timerOf b = (237, true, false, true, none)) :
    ∃ cs : List CharIrqs, AllOf bs cs ∧
      hear a (hs.flatten.length + hs.length) (p' + 1142) b hs.flatten =
        ((run ⟨b, false⟩ (cs.flatMap (·.events))).2,
          (hs.getLastD [p']).getD 0 0 + 1142,
          (run ⟨b, false⟩ (cs.flatMap (·.events))).1.bus, []) ∧
      timerOf (run ⟨b, false⟩ (cs.flatMap (·.events))).1.bus = (237, true, false, true, none) := by
  induction bs generalizing p p' hs b with
  | nil =>
    simp only [frameEdges, HeardFrom] at hh
    subst hh
    exact ⟨[], rfl, by simp [hear, run], ht⟩
  | cons c bs ih =>
    cases hs with
    | nil => exact hh.elim
    | cons h hs =>
      obtain ⟨g1, g2, g3⟩ := hh
      obtain ⟨k, xs, rfl⟩ := heardChar_cons g2
      simp only [charEdges, List.getD_cons_zero, SameGap] at g1 g3
      obtain ⟨t1, t2, t3, t4, t5⟩ := timerOf_eq ht
      have hhead : ∀ y, hs.flatten.head? = some y → k + 1141 ≤ y := by
        intro y hy
        cases bs with
        | nil =>
          simp only [frameEdges, HeardFrom] at g3
          subst g3
          simp at hy
        | cons c' bs' =>
          cases hs with
          | nil => exact g3.elim
          | cons h' hs' =>
            obtain ⟨f1, f2, f3⟩ := g3
            obtain ⟨k', xs', rfl⟩ := heardChar_cons f2
            simp only [charEdges, List.getD_cons_zero, SameGap] at f1
            simp at hy
            omega
      obtain ⟨ci, c1, c2, c3, c4⟩ := hear_char a ha (p' + 1142) k xs hs.flatten b (Or.inl hst) t4
        (Or.inl (by omega)) (by omega) (by omega) (by rw [t3]; intro h; cases h)
        (heard_bound g2) hhead
      have hof := charIrqs_of (by omega) g2 c1
      have hr := recv_char (s := ⟨b, false⟩) rfl (Or.inl hst) hof
      obtain ⟨cs, d1, d2, d3⟩ := ih (p + 1353) k hs g3 (run ⟨b, false⟩ ci.events).1.bus hr.2.1 c4
      refine ⟨ci :: cs, ⟨hof, d1⟩, ?_, ?_⟩
      · rw [show ((k :: xs) :: hs).flatten.length + ((k :: xs) :: hs).length =
            (xs.length + 2) + (hs.flatten.length + hs.length) by simp; omega, hear_add]
        simp only [List.flatten_cons, List.cons_append, c2, d2, List.flatMap_cons, run_append]
        rw [← sys_eta c3]
        simp only [Prod.mk.injEq, true_and, and_true]
        cases hs with
        | nil => simp
        | cons x l => simp only [List.getLastD_cons]
      · simp only [List.flatMap_cons, run_append]
        rw [sys_eta c3]
        exact d3

end Verif.Bus
