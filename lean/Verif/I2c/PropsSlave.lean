import Verif.I2c.SlaveLemmas

/-! # C89: the device as an I2C slave -/

namespace Verif.I2c.Slave

open Verif

theorem run_append (s : St) (l r : List BusOp) :
    run s (l ++ r) = ((run (run s l).1 r).1, (run s l).2 ++ (run (run s l).1 r).2) := by
  induction l generalizing s with
  | nil => rfl
  | cons o os ih => simp [run, ih]

theorem inv_step (c : Config) (hv : Valid c) (s : St) (h : Inv c s) (o : BusOp) : Inv c (step s o).1 := by
  cases o with
  | stop => exact (release_spec c s h).1
  | call a =>
    by_cases hk : ∃ k, Serves c k a
    · obtain ⟨k, hk⟩ := hk
      cases hb : a.getLsbD 0 with
      | true => exact (call_read c hv s h a k hk hb).2.1
      | false => exact (call_write c hv s h a k hk hb).2.1
    · rw [call_other c hv s h a (fun k hk' => hk ⟨k, hk'⟩)]; exact (release_spec c s h).1
  | write b =>
    cases hm : s.mode with
    | receiver gc =>
      obtain ⟨j, x, h1, h2, _⟩ := h.recv gc hm
      by_cases hsz : x.rxSz > 1
      · exact (write_take c s h gc hm j x h1 h2 hsz b).2.1
      · exact (write_full c s h gc hm j x h1 h2 hsz b).2.1
    | idle => rw [write_none s (by simp [hm])]; exact h
    | transmitter => rw [write_none s (by simp [hm])]; exact h
  | read ack =>
    cases hm : s.mode with
    | transmitter =>
      obtain ⟨j, x, h1, h2, _⟩ := h.tra hm
      by_cases hsz : ack = false ∨ ¬ x.txSz > 0
      · exact (read_last c s h hm j x h1 h2 ack hsz).2.1
      · have ha : ack = true := by cases ack <;> simp_all
        subst ha
        exact (read_more c s h hm j x h1 h2 (by simpa using hsz)).2.1
    | idle => rw [read_none s (by simp [hm])]; exact h
    | receiver gc => rw [read_none s (by simp [hm])]; exact h

theorem inv_run (c : Config) (hv : Valid c) (s : St) (h : Inv c s) (ops : List BusOp) : Inv c (run s ops).1 := by
  induction ops generalizing s with
  | nil => exact h
  | cons o os ih => exact ih _ (inv_step c hv s h o)

/-- The slave got these bytes. -/
def Got (k : Nat) (s : St) (x : Xfer) (s' : St) (r : List Byte) : Prop :=
  ∃ y, s'.slaves k = some y ∧ y.rx = x.rx ++ r ∧ y.rxSz = x.rxSz - r.length ∧ y.oob = x.oob ∧ y.txMem = x.txMem
    ∧ (r ≠ [] → y.rxSz ≥ 1) ∧ s'.events.count (k, .rx) = s.events.count (k, .rx) + r.length

theorem got_same {k : Nat} {s s1 s' : St} {x : Xfer} {r : List Byte}
    (hs : ∃ w, s1.slaves k = some w ∧ Same x w) (he : s1.events.count (k, .rx) = s.events.count (k, .rx))
    (h : ∀ w, s1.slaves k = some w → Got k s1 w s' r) : Got k s x s' r := by
  obtain ⟨w, hw, a1, a2, a3, _, _, a6, _⟩ := hs
  obtain ⟨y, b1, b2, b3, b4, b5, b6, b7⟩ := h w hw
  exact ⟨y, b1, by rw [b2, a1], by rw [b3, a2], by rw [b4, a6], by rw [b5, a3], b6, by rw [b7, he]⟩

theorem took_run (c : Config) (hv : Valid c) (k : Nat) (ops : List BusOp) :
    ∀ (s : St) (on : Bool) (x : Xfer), Inv c s → (∀ gc, s.mode = .receiver gc → (on = true ↔ s.cur = some k)) →
      s.slaves k = some x → ∃ r, Took c k on (run s ops).2 r ∧ Got k s x (run s ops).1 r := by
  induction ops with
  | nil =>
    intro s on x _ _ hx
    exact ⟨[], .nil on, x, hx, by simp, by simp, rfl, rfl, by simp, by simp [run]⟩
  | cons o os ih =>
    intro s on x h hon hx
    have hI := inv_step c hv s h o
    cases o with
    | stop =>
      obtain ⟨_, hm, he, hsl⟩ := release_spec c s h
      have hs : step s .stop = (release s, .stop) := rfl
      obtain ⟨w, hw, hzw⟩ := hsl k x hx
      obtain ⟨r, t, g⟩ := ih (step s .stop).1 false w hI
        (fun gc hg => by rw [hs] at hg; simp only [hm] at hg; cases hg) hw
      refine ⟨r, .stop t, got_same ⟨w, hw, hzw⟩ (he k) ?_⟩
      intro w' hw'
      rw [show (release s).slaves k = some w from hw] at hw'
      cases hw'
      exact g
    | call a =>
      by_cases hk : ∃ j, Serves c j a
      · obtain ⟨j, hj⟩ := hk
        have fin : (step s (.call a)).2 = .call a true → (step s (.call a)).1.cur = some j →
            (step s (.call a)).1.events.count (k, .rx) = s.events.count (k, .rx) →
            (∃ w, (step s (.call a)).1.slaves k = some w ∧ w.rx = x.rx ∧ w.rxSz = x.rxSz ∧ w.oob = x.oob
              ∧ w.txMem = x.txMem) →
            ∃ r, Took c k on (run s (.call a :: os)).2 r ∧ Got k s x (run s (.call a :: os)).1 r := by
          rintro h2 hcur he ⟨w, hw, e1, e2, e3, e4⟩
          have conv : ∀ r, Got k (step s (.call a)).1 w (run (step s (.call a)).1 os).1 r →
              Got k s x (run s (.call a :: os)).1 r := by
            rintro r ⟨y, b1, b2, b3, b4, b5, b6, b7⟩
            exact ⟨y, b1, by rw [b2, e1], by rw [b3, e2], by rw [b4, e3], by rw [b5, e4], b6, by
              show List.count _ (run (step s (.call a)).1 os).1.events = _
              rw [b7, he]⟩
          by_cases hkj : j = k
          · subst hkj
            obtain ⟨r, t, g⟩ := ih (step s (.call a)).1 true w hI (fun _ _ => by simp [hcur]) hw
            refine ⟨r, ?_, conv r g⟩
            show Took c j on ((step s (.call a)).2 :: _) r
            rw [h2]; exact .mine hj t
          · obtain ⟨r, t, g⟩ := ih (step s (.call a)).1 false w hI (fun _ _ => by simp [hcur, hkj]) hw
            refine ⟨r, ?_, conv r g⟩
            show Took c k on ((step s (.call a)).2 :: _) r
            rw [h2]; exact .other (fun hx => hkj (serves_unique hj hx)) t
        cases hb : a.getLsbD 0 with
        | false =>
          obtain ⟨h1, _, _, h4, _, h5, h6⟩ := call_write c hv s h a j hj hb
          obtain ⟨w, hw, a1, a2, a3, _, _, a6, _⟩ := h6 k x hx
          exact fin h1 h4 (h5 k) ⟨w, hw, a1, a2, a6, a3⟩
        | true =>
          obtain ⟨h1, _, _, h4, _, h5, h6, h7⟩ := call_read c hv s h a j hj hb
          by_cases hkj : k = j
          · subst hkj
            obtain ⟨_, w, hw, a1, a2, a3, _, _, a6, _⟩ := h7 x hx
            exact fin h1 h4 (h5 k) ⟨w, hw, a1, a2, a6, a3⟩
          · obtain ⟨w, hw, a1, a2, a3, _, _, a6, _⟩ := h6 k x hkj hx
            exact fin h1 h4 (h5 k) ⟨w, hw, a1, a2, a6, a3⟩
      · have hs := call_other c hv s h a (fun j hj => hk ⟨j, hj⟩)
        obtain ⟨_, hm, he, hsl⟩ := release_spec c s h
        obtain ⟨w, hw, hzw⟩ := hsl k x hx
        rw [hs] at hI
        obtain ⟨r, t, g⟩ := ih (release s) false w hI (fun gc hg => by rw [hm] at hg; cases hg) hw
        refine ⟨r, ?_, ?_⟩
        · simp only [run, hs]; exact .refused t
        · simp only [run, hs]
          refine got_same ⟨w, hw, hzw⟩ (he k) ?_
          intro w' hw'
          rw [hw] at hw'
          cases hw'
          exact g
    | write b =>
      by_cases hm : ∃ gc, s.mode = .receiver gc
      · obtain ⟨gc, hm⟩ := hm
        obtain ⟨j, z, hj, hz, _⟩ := h.recv gc hm
        by_cases hsz : z.rxSz > 1
        · obtain ⟨h1, _, _, h4, h5, h6⟩ := write_take c s h gc hm j z hj hz hsz b
          have hon' : ∀ g, (step s (.write b)).1.mode = .receiver g → (on = true ↔ (step s (.write b)).1.cur = some k) := by
            intro _ _; rw [h4, ← hj]; exact hon gc hm
          by_cases hkj : j = k
          · subst hkj
            have ht : on = true := (hon gc hm).mpr hj
            subst ht
            rw [hx] at hz; cases hz
            obtain ⟨r, t, g⟩ := ih (step s (.write b)).1 true (stored x b) hI hon' (by rw [h6]; simp)
            refine ⟨b :: r, ?_, ?_⟩
            · show Took c j true ((step s (.write b)).2 :: _) _
              rw [h1]; exact .byte t
            · obtain ⟨y, b1, b2, b3, b4, b5, b6, b7⟩ := g
              refine ⟨y, b1, ?_, ?_, b4, b5, ?_, ?_⟩
              · rw [b2]; simp [stored]
              · rw [b3]; simp [stored]; omega
              · intro _
                by_cases hr : r = []
                · subst hr; rw [b3]; simp [stored]; omega
                · exact b6 hr
              · show List.count _ (run (step s (.write b)).1 os).1.events = _
                rw [b7, h5, List.count_append]; simp; omega
          · have hf : on = false := by
              cases hon2 : on with
              | false => rfl
              | true =>
                have := (hon gc hm).mp hon2
                rw [hj] at this; cases this; exact absurd rfl hkj
            subst hf
            have hkj' : ¬ k = j := fun e => hkj e.symm
            obtain ⟨r, t, g⟩ := ih (step s (.write b)).1 false x hI hon' (by rw [h6]; simp [hkj', hx])
            refine ⟨r, ?_, ?_⟩
            · show Took c k false ((step s (.write b)).2 :: _) _
              rw [h1]; exact .foreign t
            · obtain ⟨y, b1, b2, b3, b4, b5, b6, b7⟩ := g
              refine ⟨y, b1, b2, b3, b4, b5, b6, ?_⟩
              show List.count _ (run (step s (.write b)).1 os).1.events = _
              rw [b7, h5, List.count_append]
              simp [hkj]
        · obtain ⟨h1, _, h3, h4, h5⟩ := write_full c s h gc hm j z hj hz hsz b
          obtain ⟨w, hw, hzw⟩ := h5 k x hx
          obtain ⟨r, t, g⟩ := ih (step s (.write b)).1 on w hI (fun g hg => by rw [h3] at hg; cases hg) hw
          refine ⟨r, ?_, got_same ⟨w, hw, hzw⟩ (h4 k) ?_⟩
          · show Took c k on ((step s (.write b)).2 :: _) _
            rw [h1]; exact .nak t
          · intro w' hw'; rw [hw] at hw'; cases hw'; exact g
      · have hs := write_none s (fun gc hg => hm ⟨gc, hg⟩) b
        obtain ⟨r, t, g⟩ := ih s on x h hon hx
        exact ⟨r, by simp only [run, hs]; exact .nak t, by simp only [run, hs]; exact g⟩
    | read ack =>
      by_cases hm : s.mode = .transmitter
      · obtain ⟨j, z, hj, hz, _⟩ := h.tra hm
        by_cases hsz : ack = false ∨ ¬ z.txSz > 0
        · obtain ⟨h1, _, h3, h4, h5⟩ := read_last c s h hm j z hj hz ack hsz
          obtain ⟨w, hw, hzw⟩ := h5 k x hx
          obtain ⟨r, t, g⟩ := ih (step s (.read ack)).1 on w hI (fun g hg => by rw [h3] at hg; cases hg) hw
          refine ⟨r, ?_, got_same ⟨w, hw, hzw⟩ (h4 k) ?_⟩
          · show Took c k on ((step s (.read ack)).2 :: _) _
            rw [h1]; exact .read t
          · intro w' hw'; rw [hw] at hw'; cases hw'; exact g
        · have ha : ack = true := by cases ack <;> simp_all
          subst ha
          obtain ⟨h1, _, h3, _, _, h6, h7⟩ := read_more c s h hm j z hj hz (by simpa using hsz)
          obtain ⟨w, hw, e1, e2, e3, e4⟩ : ∃ w, (step s (.read true)).1.slaves k = some w ∧ w.rx = x.rx ∧ w.rxSz = x.rxSz
              ∧ w.oob = x.oob ∧ w.txMem = x.txMem := by
            rw [h7]
            by_cases hkj : k = j
            · subst hkj
              rw [hx] at hz; cases hz
              exact ⟨_, if_pos rfl, rfl, rfl, rfl, rfl⟩
            · exact ⟨x, by simp [hkj, hx], rfl, rfl, rfl, rfl⟩
          obtain ⟨r, t, y, b1, b2, b3, b4, b5, b6, b7⟩ :=
            ih (step s (.read true)).1 on w hI (fun g hg => by rw [h3] at hg; cases hg) hw
          refine ⟨r, ?_, y, b1, by rw [b2, e1], by rw [b3, e2], by rw [b4, e3], by rw [b5, e4], b6, ?_⟩
          · show Took c k on ((step s (.read true)).2 :: _) _
            rw [h1]; exact .read t
          · show List.count _ (run (step s (.read true)).1 os).1.events = _
            rw [b7, h6]
      · have hs := read_none s hm ack
        obtain ⟨r, t, g⟩ := ih s on x h hon hx
        exact ⟨r, by simp only [run, hs]; exact .read t, by simp only [run, hs]; exact g⟩

/-- `Took` determines the bytes. -/
theorem took_unique {c : Config} {k : Nat} {on : Bool} {l : List Seen} {r q : List Byte}
    (h : Took c k on l r) (g : Took c k on l q) : r = q := by
  induction h generalizing q with
  | nil => cases g; rfl
  | mine hs _ ih => cases g with
    | mine _ t => exact ih t
    | other n _ => exact absurd hs n
  | other hn _ ih => cases g with
    | mine s _ => exact absurd s hn
    | other _ t => exact ih t
  | refused _ ih => cases g with | refused t => exact ih t
  | stop _ ih => cases g with | stop t => exact ih t
  | byte _ ih => cases g with | byte t => rw [ih t]
  | foreign _ ih => cases g with | foreign t => exact ih t
  | nak _ ih => cases g with | nak t => exact ih t
  | read _ ih => cases g with | read t => exact ih t

theorem given_ne {c : Config} {k : Nat} {p : Xfer × Byte} (h : given c k = some p) : c ≠ [] := by
  intro hc; subst hc; simp [given] at h

theorem start_given {c : Config} {k : Nat} {x : Xfer} {m : Byte} (h : given c k = some (x, m)) :
    (started c).slaves k = some x := by rw [started_slaves, h]; rfl

theorem start_not {c : Config} (hc : c ≠ []) (gc : Bool) : (started c).mode ≠ .receiver gc := by
  rw [(started_idle c hc).1]; simp

theorem took_start (c : Config) (hv : Valid c) (k : Nat) (x : Xfer) (m : Byte) (hg : given c k = some (x, m))
    (ops : List BusOp) :
    ∃ r, Took c k false (run (started c) ops).2 r ∧ Got k (started c) x (run (started c) ops).1 r :=
  took_run c hv k ops (started c) false x (inv_started c (given_ne hg))
    (fun gc h => absurd h (start_not (given_ne hg) gc)) (start_given hg)

theorem idle_writes (s : St) (hm : s.mode = .idle) (bs : List Byte) :
    run s (bs.map .write) = (s, bs.map fun b => .write b false) := by
  induction bs with
  | nil => rfl
  | cons b bs ih => simp [run, write_none s (by simp [hm]) b, ih]

theorem idle_reads (s : St) (hm : s.mode = .idle) (l : List Bool) :
    run s (l.map .read) = (s, l.map fun b => .read 0xff#8 b) := by
  induction l with
  | nil => rfl
  | cons b bs ih => simp [run, read_none s (by simp [hm]) b, ih]

theorem take_writes (c : Config) (hv : Valid c) (k : Nat) (bs : List Byte) :
    ∀ (s : St) (gc : Bool) (x : Xfer) (i : Nat) (n : Int), Inv c s → s.mode = .receiver gc → s.cur = some k →
      s.slaves k = some x → x.rxSz = n - i →
      (run s (bs.map .write)).2 = (bs.zipIdx i).map fun p => .write p.1 (decide ((p.2 : Int) + 1 < n)) := by
  induction bs with
  | nil => intros; rfl
  | cons b bs ih =>
    intro s gc x i n h hm hk hx hn
    by_cases hsz : x.rxSz > 1
    · obtain ⟨h1, h2, h3, h4, _, h6⟩ := write_take c s h gc hm k x hk hx hsz b
      have := ih (step s (.write b)).1 gc (stored x b) (i + 1) n h2 h3 h4 (by rw [h6]; simp)
        (by simp [stored]; omega)
      simp only [List.map_cons, run, List.zipIdx_cons]
      rw [this, h1]
      have hd : decide ((i : Int) + 1 < n) = true := by simp; omega
      rw [hd]
    · obtain ⟨h1, _, h3, _, _⟩ := write_full c s h gc hm k x hk hx hsz b
      simp only [List.map_cons, run, List.zipIdx_cons]
      rw [idle_writes _ h3, h1]
      have hd : decide ((i : Int) + 1 < n) = false := by simp; omega
      rw [hd]
      congr 1
      have : ∀ (l : List Byte) (j : Nat), i ≤ j →
          l.map (fun b => Seen.write b false) = (l.zipIdx j).map fun p => .write p.1 (decide ((p.2 : Int) + 1 < n)) := by
        intro l
        induction l with
        | nil => intros; rfl
        | cons a l ihl =>
          intro j hj
          have hd : decide ((j : Int) + 1 < n) = false := by simp; omega
          simp only [List.map_cons, List.zipIdx_cons, hd]
          rw [ihl (j + 1) (by omega)]
      exact this bs (i + 1) (by omega)

/-- The sending side of a transfer. -/
def TxSame (x y : Xfer) : Prop := y.txMem = x.txMem ∧ y.txPos = x.txPos ∧ y.txSz = x.txSz ∧ y.over = x.over

theorem Same.tx {x y : Xfer} (h : Same x y) : TxSame x y := ⟨h.2.2.1, h.2.2.2.1, h.2.2.2.2.1, h.2.2.2.2.2.2⟩

theorem TxSame.trans {x y z : Xfer} (h : TxSame x y) (g : TxSame y z) : TxSame x z :=
  ⟨g.1.trans h.1, g.2.1.trans h.2.1, g.2.2.1.trans h.2.2.1, g.2.2.2.trans h.2.2.2⟩

/-- Nothing is sent without a call for reading. -/
theorem tx_keep (c : Config) (hv : Valid c) (k : Nat) (ops : List BusOp) :
    ∀ (s : St) (x : Xfer), Inv c s → ¬ (s.mode = .transmitter ∧ s.cur = some k) → s.slaves k = some x →
      (∀ a, .call a ∈ ops → ¬ (Serves c k a ∧ a.getLsbD 0 = true)) →
      ∃ y, (run s ops).1.slaves k = some y ∧ TxSame x y := by
  induction ops with
  | nil => intro s x _ _ hx _; exact ⟨x, hx, rfl, rfl, rfl, rfl⟩
  | cons o os ih =>
    intro s x h hn hx hno
    have hI := inv_step c hv s h o
    have next : ∀ w, (step s o).1.slaves k = some w → TxSame x w →
        ¬ ((step s o).1.mode = .transmitter ∧ (step s o).1.cur = some k) →
        ∃ y, (run s (o :: os)).1.slaves k = some y ∧ TxSame x y := by
      intro w hw hs hn'
      obtain ⟨y, hy, hwy⟩ := ih (step s o).1 w hI hn' hw (fun a ha => hno a (List.mem_cons_of_mem _ ha))
      exact ⟨y, hy, hs.trans hwy⟩
    cases o with
    | stop =>
      obtain ⟨_, hm, _, hsl⟩ := release_spec c s h
      obtain ⟨w, hw, hzw⟩ := hsl k x hx
      exact next w hw hzw.tx (by rintro ⟨h1, _⟩; rw [show (step s .stop).1 = release s from rfl, hm] at h1; cases h1)
    | call a =>
      by_cases hk : ∃ j, Serves c j a
      · obtain ⟨j, hj⟩ := hk
        cases hb : a.getLsbD 0 with
        | false =>
          obtain ⟨_, _, ⟨gc, h3⟩, _, _, _, h6⟩ := call_write c hv s h a j hj hb
          obtain ⟨w, hw, hzw⟩ := h6 k x hx
          exact next w hw hzw.tx (by rintro ⟨h1, _⟩; rw [h3] at h1; cases h1)
        | true =>
          have hkj : k ≠ j := by
            rintro rfl
            exact hno a (by simp) ⟨hj, hb⟩
          obtain ⟨_, _, _, h4, _, _, h6, _⟩ := call_read c hv s h a j hj hb
          obtain ⟨w, hw, hzw⟩ := h6 k x hkj hx
          exact next w hw hzw.tx (by rintro ⟨_, h1⟩; rw [h4] at h1; cases h1; exact hkj rfl)
      · have hs := call_other c hv s h a (fun j hj => hk ⟨j, hj⟩)
        obtain ⟨_, hm, _, hsl⟩ := release_spec c s h
        obtain ⟨w, hw, hzw⟩ := hsl k x hx
        exact next w (by rw [hs]; exact hw) hzw.tx (by rintro ⟨h1, _⟩; rw [hs] at h1; rw [hm] at h1; cases h1)
    | write b =>
      by_cases hm : ∃ gc, s.mode = .receiver gc
      · obtain ⟨gc, hm⟩ := hm
        obtain ⟨j, z, hj, hz, _⟩ := h.recv gc hm
        by_cases hsz : z.rxSz > 1
        · obtain ⟨_, _, h3, _, _, h6⟩ := write_take c s h gc hm j z hj hz hsz b
          have hn' : ¬ ((step s (.write b)).1.mode = .transmitter ∧ (step s (.write b)).1.cur = some k) := by
            rintro ⟨h1, _⟩; rw [h3] at h1; cases h1
          by_cases hkj : k = j
          · subst hkj
            rw [hx] at hz; cases hz
            exact next (stored x b) (by rw [h6]; simp) ⟨rfl, rfl, rfl, rfl⟩ hn'
          · exact next x (by rw [h6]; simp [hkj, hx]) ⟨rfl, rfl, rfl, rfl⟩ hn'
        · obtain ⟨_, _, h3, _, h5⟩ := write_full c s h gc hm j z hj hz hsz b
          obtain ⟨w, hw, hzw⟩ := h5 k x hx
          exact next w hw hzw.tx (by rintro ⟨h1, _⟩; rw [h3] at h1; cases h1)
      · have hs := write_none s (fun gc hg => hm ⟨gc, hg⟩) b
        exact next x (by rw [hs]; exact hx) ⟨rfl, rfl, rfl, rfl⟩ (by rw [hs]; exact hn)
    | read ack =>
      by_cases hm : s.mode = .transmitter
      · obtain ⟨j, z, hj, hz, _⟩ := h.tra hm
        have hkj : ¬ k = j := by rintro rfl; exact hn ⟨hm, hj⟩
        by_cases hsz : ack = false ∨ ¬ z.txSz > 0
        · obtain ⟨_, _, h3, _, h5⟩ := read_last c s h hm j z hj hz ack hsz
          obtain ⟨w, hw, hzw⟩ := h5 k x hx
          exact next w hw hzw.tx (by rintro ⟨h1, _⟩; rw [h3] at h1; cases h1)
        · have ha : ack = true := by cases ack <;> simp_all
          subst ha
          obtain ⟨_, _, _, h4, _, _, h7⟩ := read_more c s h hm j z hj hz (by simpa using hsz)
          exact next x (by rw [h7]; simp [hkj, hx]) ⟨rfl, rfl, rfl, rfl⟩
            (by rintro ⟨_, h1⟩; rw [h4] at h1; cases h1; exact hkj rfl)
      · have hs := read_none s hm ack
        exact next x (by rw [hs]; exact hx) ⟨rfl, rfl, rfl, rfl⟩ (by rw [hs]; exact hn)

/-- Reading after the call: `t` bytes are left besides the one in the data register. -/
theorem reads (c : Config) (hv : Valid c) (k : Nat) (m : Nat) :
    ∀ (s : St) (x : Xfer) (p : Nat) (t : Nat), Inv c s → s.mode = .transmitter → s.cur = some k →
      s.slaves k = some x → s.dat = x.txMem p → x.txPos = p + 1 → x.txSz = t →
      let e := run s (List.replicate m (.read true) ++ [.read false])
      e.2 = (List.range (m + 1)).map (fun i => .read (if i < t + 1 then x.txMem (p + i) else 0xff#8) (decide (i < m)))
        ∧ e.1.mode = .idle ∧ ∃ y, e.1.slaves k = some y ∧ y.txMem = x.txMem ∧ y.txPos = p + 1 + min m t
          ∧ y.txSz = (t - min m t : Nat) ∧ y.over = x.over := by
  induction m with
  | zero =>
    intro s x p t h hm hk hx hd hp ht e
    obtain ⟨h1, _, h3, _, h5⟩ := read_last c s h hm k x hk hx false (Or.inl rfl)
    obtain ⟨w, hw, hzw⟩ := h5 k x hx
    obtain ⟨a1, a2, a3, a4⟩ := hzw.tx
    refine ⟨?_, h3, w, hw, a1, by rw [a2, hp]; simp, by rw [a3, ht]; simp, a4⟩
    show [(step s (.read false)).2] = _
    rw [h1, hd]; simp
  | succ m ih =>
    intro s x p t h hm hk hx hd hp ht e
    have he : e = ((run (step s (.read true)).1 (List.replicate m (.read true) ++ [.read false])).1,
        (step s (.read true)).2 :: (run (step s (.read true)).1 (List.replicate m (.read true) ++ [.read false])).2) := rfl
    rw [he, List.range_succ_eq_map, List.map_cons, List.map_map]
    by_cases hz : t = 0
    · subst hz
      obtain ⟨h1, _, h3, _, h5⟩ := read_last c s h hm k x hk hx true (Or.inr (by omega))
      obtain ⟨w, hw, hzw⟩ := h5 k x hx
      obtain ⟨a1, a2, a3, a4⟩ := hzw.tx
      have hl : (List.replicate m (BusOp.read true) ++ [.read false]) = (List.replicate m true ++ [false]).map .read := by
        simp
      rw [hl, idle_reads _ h3, h1, hd]
      refine ⟨?_, h3, w, hw, a1, by rw [a2, hp]; simp, by rw [a3, ht]; simp, a4⟩
      simp only [Nat.zero_add, Nat.zero_lt_one, if_true, Nat.add_zero, Nat.zero_lt_succ, decide_true]
      congr 1
      apply List.ext_getElem
      · simp
      · intro i hi1 hi2
        simp at hi1
        by_cases him : i < m
        · simp [List.getElem_append, him]
        · have : i = m := by omega
          subst this
          simp
    · obtain ⟨h1, h2, h3, h4, h5, _, h7⟩ := read_more c s h hm k x hk hx (by omega)
      have g := ih (step s (.read true)).1 (loaded x x.addr) (p + 1) (t - 1) h2 h3 h4 (by rw [h7]; simp)
        (by rw [h5, hp]; rfl) (by simp [loaded, hp]) (by simp [loaded, ht]; omega)
      obtain ⟨g1, g2, y, g3, g4, g5, g6, g7⟩ := g
      refine ⟨?_, g2, y, g3, g4, by rw [g5]; omega, by rw [g6]; congr 1; omega, ?_⟩
      · rw [g1, h1, hd]
        simp only [Nat.zero_lt_succ, if_true, Nat.add_zero, decide_true]
        congr 1
        apply List.map_congr_left
        intro i _
        have e1 : (i < t - 1 + 1) = (i + 1 < t + 1) := by apply propext; omega
        have e2 : p + 1 + i = p + (i + 1) := by omega
        have e3 : (i + 1 < m + 1) = (i < m) := by apply propext; omega
        simp only [Function.comp, Nat.succ_eq_add_one, e1, e2, e3, loaded]
      · rw [g7]; simp [loaded, ht]; omega

/-- One reading transfer from any point of a history. -/
theorem read_transfer (c : Config) (hv : Valid c) (k : Nat) (s : St) (x : Xfer) (h : Inv c s) (a : Byte)
    (hk : Serves c k a) (hb : a.getLsbD 0 = true) (hx : s.slaves k = some x) (n : Nat) (hn : x.txSz = n) (h0 : 0 < n) (m : Nat) :
    (run s (reading a m)).2 = .call a true :: (List.range (m + 1)).map
        (fun i => .read (if i < n then x.txMem (x.txPos + i) else 0xff#8) (decide (i < m)))
      ∧ (run s (reading a m)).1.mode = .idle
      ∧ ∃ y, (run s (reading a m)).1.slaves k = some y ∧ y.txMem = x.txMem ∧ y.txPos = x.txPos + min (m + 1) n
          ∧ y.txSz = (n - min (m + 1) n : Nat) ∧ y.over = x.over := by
  obtain ⟨h1, h2, h3, h4, _, _, _, h7⟩ := call_read c hv s h a k hk hb
  obtain ⟨hd, w, hw, _, _, a3, a4, a5, _, a7⟩ := h7 x hx
  have g := reads c hv k m (step s (.call a)).1 w x.txPos (n - 1) h2 h3 h4 hw (by rw [hd, a3]; rfl)
    (by rw [a4]; rfl) (by rw [a5]; simp [loaded, hn]; omega)
  obtain ⟨g1, g2, y, g3, g4, g5, g6, g7⟩ := g
  refine ⟨?_, g2, y, g3, by rw [g4, a3]; rfl, by rw [g5]; omega, by rw [g6]; congr 1; omega, ?_⟩
  · show (step s (.call a)).2 :: _ = _
    rw [h1]
    have e : n - 1 + 1 = n := by omega
    have em : w.txMem = x.txMem := a3
    rw [em, e] at g1
    exact congrArg _ g1
  · rw [g7, a7]; simp [loaded, hn]; omega

/-- Transfers keep count of what was sent. -/
theorem handed_run (c : Config) (hv : Valid c) (k n : Nat) (ts : List Transfer) :
    ∀ (s : St) (x : Xfer) (p q : Nat), Inv c s → s.mode = .idle → s.slaves k = some x → x.txPos = p → p ≤ n →
      x.txSz = (n - p : Nat) → (∀ t ∈ ts, t.Proper) → Handed c k n p ts q →
      (run s (ts.flatMap Transfer.ops)).1.mode = .idle
      ∧ q ≤ n ∧ ∃ y, (run s (ts.flatMap Transfer.ops)).1.slaves k = some y ∧ y.txMem = x.txMem ∧ y.txPos = q
          ∧ y.txSz = (n - q : Nat) ∧ y.over = x.over := by
  induction ts with
  | nil =>
    intro s x p q h hm hx hp hpn hn _ hh
    cases hh
    exact ⟨hm, hpn, x, hx, rfl, hp, hn, rfl⟩
  | cons t ts ih =>
    intro s x p q h hm hx hp hpn hn hpr hh
    have hI := inv_run c hv s h t.ops
    have hstop : ∀ l, (run s (l ++ [.stop])).1.mode = .idle := by
      intro l
      rw [run_append]
      exact (release_spec c _ (inv_run c hv s h l)).2.1
    have hidle : (run s t.ops).1.mode = .idle := by cases t <;> exact hstop _
    rw [List.flatMap_cons, run_append]
    have ht := hpr t (by simp)
    cases hh with
    | other hno hrest =>
      have hcalls : ∀ a, .call a ∈ t.ops → ¬ (Serves c k a ∧ a.getLsbD 0 = true) := by
        cases t with
        | wr a bs =>
          intro b hb hs
          have hba : b = a := by simpa [Transfer.ops, writing] using hb
          subst hba
          have : b.getLsbD 0 = false := ht
          rw [this] at hs
          exact absurd hs.2 (by simp)
        | rd a m =>
          intro b hb hs
          have hba : b = a := by simpa [Transfer.ops, reading] using hb
          subst hba
          exact hno hs
      obtain ⟨y, hy, b1, b2, b3, b4⟩ := tx_keep c hv k t.ops s x h (by rw [hm]; simp) hx hcalls
      obtain ⟨g0, g1, z, g2, g3, g4, g5, g6⟩ := ih (run s t.ops).1 y p q hI hidle hy (by rw [b2, hp]) hpn (by rw [b3, hn])
        (fun t' h' => hpr t' (List.mem_cons_of_mem _ h')) hrest
      exact ⟨g0, g1, z, g2, by rw [g3, b1], g4, g5, by rw [g6, b4]⟩
    | @mine _ a m _ _ hr hlt hrest =>
      obtain ⟨_, f1, w, f2, f3, f4, f5, f6⟩ := read_transfer c hv k s x h a hr.1 hr.2 hx (n - p) hn (by omega) m
      have hIr := inv_run c hv s h (reading a m)
      have hops : run s (Transfer.rd a m).ops = ((run s (reading a m)).1, (run s (reading a m)).2 ++ [.stop]) := by
        show run s (reading a m ++ [.stop]) = _
        rw [run_append]
        have : release (run s (reading a m)).1 = (run s (reading a m)).1 := by simp [release, f1]
        simp [run, step, this]
      rw [hops]
      obtain ⟨g0, g1, z, g2, g3, g4, g5, g6⟩ := ih (run s (reading a m)).1 w (p + min (m + 1) (n - p)) q hIr f1 f2
        (by rw [f4, hp]) (by omega) (by rw [f5]; congr 1; omega)
        (fun t' h' => hpr t' (List.mem_cons_of_mem _ h')) hrest
      exact ⟨g0, g1, z, g2, by rw [g3, f3], g4, g5, by rw [g6, f6]⟩

/-! ## The properties -/

/-- **C89** In every history, whatever masters do, each slave's buffer receives exactly the bytes that were acknowledged
after calls it has to serve, in order; the program is told of each; nothing is stored outside the buffer. -/
theorem C89_received (c : Config) (hv : Valid c) (k : Nat) (x : Xfer) (m : Byte) (hg : given c k = some (x, m))
    (ops : List BusOp) :
    ∃ r y, Took c k false (run (started c) ops).2 r ∧ (run (started c) ops).1.slaves k = some y
      ∧ y.rx = x.rx ++ r ∧ y.oob = x.oob ∧ (r.length : Int) ≤ max 0 (x.rxSz - 1)
      ∧ (run (started c) ops).1.events.count (k, .rx) = r.length := by
  obtain ⟨r, t, y, h1, h2, h3, h4, _, h6, h7⟩ := took_start c hv k x m hg ops
  refine ⟨r, y, t, h1, h2, h4, ?_, by rw [h7, (started_idle c (given_ne hg)).2.2.2.2.2.2]; simp⟩
  by_cases hr : r = []
  · subst hr; simp only [List.length_nil]; omega
  · have := h6 hr; omega

/-- **C89** A master that writes to a slave sees an acknowledge for each byte for which the buffer has room, except for
the last byte of the buffer. `r`: what the slave received before. -/
theorem C89_acknowledged (c : Config) (hv : Valid c) (k : Nat) (x : Xfer) (m : Byte) (hg : given c k = some (x, m))
    (ops : List BusOp) (r : List Byte) (ht : Took c k false (run (started c) ops).2 r)
    (a : Byte) (hk : Serves c k a) (hb : a.getLsbD 0 = false) (bs : List Byte) :
    (run (started c) (ops ++ writing a bs)).2 = (run (started c) ops).2
      ++ .call a true :: bs.zipIdx.map fun p => .write p.1 (decide ((p.2 : Int) + 1 < x.rxSz - r.length)) := by
  obtain ⟨r', t', y, h1, _, h3, _⟩ := took_start c hv k x m hg ops
  cases took_unique ht t'
  have hI := inv_run c hv (started c) (inv_started c (given_ne hg)) ops
  obtain ⟨g1, g2, ⟨gc, g3⟩, g4, _, _, g6⟩ := call_write c hv (run (started c) ops).1 hI a k hk hb
  obtain ⟨w, hw, hsame⟩ := g6 k y h1
  have := take_writes c hv k bs _ gc w 0 (x.rxSz - r.length) g2 g3 g4 hw (by rw [hsame.2.1, h3]; simp)
  rw [run_append]
  show _ ++ ((step (run (started c) ops).1 (.call a)).2 :: _) = _
  rw [g1, this]

/-- **C89** A buffer of `n` bytes does not take `n` bytes: the last one is refused. -/
theorem C89_last_byte_refused (c : Config) (hv : Valid c) (k : Nat) (x : Xfer) (m : Byte) (hg : given c k = some (x, m))
    (a : Byte) (hk : Serves c k a) (hb : a.getLsbD 0 = false) (bs : List Byte) (b : Byte)
    (hn : x.rxSz = (bs ++ [b]).length) :
    (run (started c) (writing a (bs ++ [b]))).2
      = .call a true :: (bs.map fun b => .write b true) ++ [.write b false] := by
  have h := C89_acknowledged c hv k x m hg [] [] (.nil false) a hk hb (bs ++ [b])
  simp only [List.nil_append, run] at h
  rw [h, List.zipIdx_append]
  simp only [List.map_append, List.cons_append, List.length_nil]
  congr 2
  · apply List.ext_getElem
    · simp
    · intro i h1 h2
      simp at h1
      simp [hn]
      omega
  · simp [hn]

/-- **C89** The device answers, at every point of every history, exactly the address bytes that some slave has to serve. -/
theorem C89_answers (c : Config) (hv : Valid c) (hc : c ≠ []) (ops : List BusOp) (a : Byte) :
    (step (run (started c) ops).1 (.call a)).2 = .call a true ↔ ∃ k, Serves c k a := by
  have hI := inv_run c hv (started c) (inv_started c hc) ops
  constructor
  · intro h
    by_cases hk : ∃ k, Serves c k a
    · exact hk
    · rw [call_other c hv _ hI a (fun k hk' => hk ⟨k, hk'⟩)] at h
      simp at h
  · rintro ⟨k, hk⟩
    cases hb : a.getLsbD 0 with
    | true => exact (call_read c hv _ hI a k hk hb).1
    | false => exact (call_write c hv _ hI a k hk hb).1

/-- **C89** At no point of any history does the driver use a transfer that was not set up or become a master. -/
theorem C89_only_slave (c : Config) (hv : Valid c) (hc : c ≠ []) (ops : List BusOp) :
    (run (started c) ops).1.undef = false ∧ (run (started c) ops).1.sta = false :=
  let h := inv_run c hv (started c) (inv_started c hc) ops
  ⟨h.undef, h.sta⟩

/-- **C89** After a call the transfer of the slave that serves it holds the address that was called, in bits 1 to 7. -/
theorem C89_called_address (c : Config) (hv : Valid c) (hc : c ≠ []) (ops : List BusOp) (a : Byte) (k : Nat)
    (hk : Serves c k a) :
    ∃ y, (run (started c) (ops ++ [.call a])).1.slaves k = some y ∧ y.addr = a &&& 0xfe#8 := by
  have hI := inv_run c hv (started c) (inv_started c hc) ops
  rw [run_append]
  show ∃ y, (step (run (started c) ops).1 (.call a)).1.slaves k = some y ∧ _
  cases hb : a.getLsbD 0 with
  | true => exact (call_read c hv _ hI a k hk hb).2.2.2.2.1
  | false => exact (call_write c hv _ hI a k hk hb).2.2.2.2.1

theorem took_nothing {c : Config} {k : Nat} {l : List Seen} {on : Bool} {r : List Byte} (h : Took c k on l r)
    (hon : on = false) (hno : ∀ a, .call a true ∈ l → ¬ Serves c k a) : r = [] := by
  induction h with
  | nil => rfl
  | mine hs _ _ => exact absurd hs (hno _ (by simp))
  | byte => cases hon
  | other _ _ ih => exact ih rfl (fun a ha => hno a (List.mem_cons_of_mem _ ha))
  | refused _ ih => exact ih rfl (fun a ha => hno a (List.mem_cons_of_mem _ ha))
  | stop _ ih => exact ih rfl (fun a ha => hno a (List.mem_cons_of_mem _ ha))
  | foreign _ ih => exact ih hon (fun a ha => hno a (List.mem_cons_of_mem _ ha))
  | nak _ ih => exact ih hon (fun a ha => hno a (List.mem_cons_of_mem _ ha))
  | read _ ih => exact ih hon (fun a ha => hno a (List.mem_cons_of_mem _ ha))

theorem calls_seen (s : St) (ops : List BusOp) (a : Byte) (ack : Bool) (h : .call a ack ∈ (run s ops).2) :
    .call a ∈ ops := by
  induction ops generalizing s with
  | nil => simp [run] at h
  | cons o os ih =>
    simp only [run, List.mem_cons] at h
    rcases h with h | h
    · have : o = .call a := by
        cases o with
        | stop => simp [step] at h
        | call b =>
          simp only [step] at h
          cases hc : called (release s) b with
          | none => rw [hc] at h; simp at h; rw [h.1]
          | some p => rw [hc] at h; simp at h; rw [h.1]
        | write b =>
          exfalso
          cases hm : s.mode <;> simp only [step, hm] at h
          all_goals first | (simp at h) | (cases ha : s.aa <;> rw [ha] at h <;> simp at h)
        | read b =>
          exfalso
          cases hm : s.mode <;> simp only [step, hm] at h
          all_goals first | (cases b <;> cases ha : s.aa <;> simp [ha] at h; done) | (simp at h)
      rw [this]; simp
    · exact List.mem_cons_of_mem _ (ih _ h)

/-- **C89** A slave nobody calls is not touched: it neither receives nor sends. -/
theorem C89_not_addressed (c : Config) (hv : Valid c) (k : Nat) (x : Xfer) (m : Byte) (hg : given c k = some (x, m))
    (ops : List BusOp) (hno : ∀ a, .call a ∈ ops → ¬ Serves c k a) :
    ∃ y, (run (started c) ops).1.slaves k = some y ∧ y.rx = x.rx ∧ y.rxSz = x.rxSz ∧ y.txPos = x.txPos
      ∧ y.txSz = x.txSz := by
  obtain ⟨r, t, y, h1, h2, h3, _⟩ := took_start c hv k x m hg ops
  have hr := took_nothing t rfl (fun a ha => hno a (calls_seen _ _ a true ha))
  subst hr
  obtain ⟨z, hz, b⟩ := tx_keep c hv k ops (started c) x (inv_started c (given_ne hg))
    (by rw [(started_idle c (given_ne hg)).1]; simp) (start_given hg) (fun a ha hs => hno a ha hs.1)
  rw [h1] at hz
  cases hz
  exact ⟨y, h1, by simpa using h2, by simpa using h3, b.2.1, b.2.2.1⟩

/-- **C89** (partial) A master that reads gets the bytes of the buffer from the first one not yet sent, then 0xff, and
nothing outside the buffer is sent. Missing: a reading that begins when all bytes are sent (`Handed` excludes it), see
`C89_beyond_the_buffer`; a master that calls a slave for reading and reads nothing. -/
theorem C89_sent_partial (c : Config) (hv : Valid c) (k : Nat) (x : Xfer) (m : Byte) (hg : given c k = some (x, m))
    (n : Nat) (hn : x.txSz = n) (hp : x.txPos = 0) (ts : List Transfer) (hpr : ∀ t ∈ ts, t.Proper)
    (p : Nat) (hh : Handed c k n 0 ts p) (hlt : p < n) (a : Byte) (hk : Serves c k a) (hb : a.getLsbD 0 = true) (j : Nat) :
    (run (started c) (ts.flatMap Transfer.ops ++ reading a j)).2 = (run (started c) (ts.flatMap Transfer.ops)).2
        ++ .call a true :: (List.range (j + 1)).map
          (fun i => .read (if p + i < n then x.txMem (p + i) else 0xff#8) (decide (i < j)))
      ∧ ∃ y, (run (started c) (ts.flatMap Transfer.ops ++ reading a j)).1.slaves k = some y ∧ y.over = x.over := by
  have hI0 := inv_started c (given_ne hg)
  obtain ⟨_, _, y, h2, h3, h4, h5, h6⟩ := handed_run c hv k n ts (started c) x 0 p hI0
    (started_idle c (given_ne hg)).1 (start_given hg) hp (by omega) (by simpa using hn) hpr hh
  have hI := inv_run c hv (started c) hI0 (ts.flatMap Transfer.ops)
  obtain ⟨f1, _, w, f2, _, _, _, f6⟩ := read_transfer c hv k _ y hI a hk hb h2 (n - p) h5 (by omega) j
  rw [run_append]
  refine ⟨?_, w, f2, by rw [f6, h6]⟩
  show _ ++ (run (run (started c) (ts.flatMap Transfer.ops)).1 (reading a j)).2 = _
  rw [f1, h3, h4]
  congr 2
  apply List.map_congr_left
  intro i _
  have e : (i < n - p) = (p + i < n) := by apply propext; omega
  simp only [e]

/-- **C89** The code does not keep to the buffer: after all `n` bytes are sent, the next reading gets the byte behind the
buffer. -/
theorem C89_beyond_the_buffer (c : Config) (hv : Valid c) (k : Nat) (x : Xfer) (m : Byte) (hg : given c k = some (x, m))
    (n : Nat) (hn : x.txSz = n) (hp : x.txPos = 0) (ts : List Transfer) (hpr : ∀ t ∈ ts, t.Proper)
    (hh : Handed c k n 0 ts n) (a : Byte) (hk : Serves c k a) (hb : a.getLsbD 0 = true) :
    (run (started c) (ts.flatMap Transfer.ops ++ reading a 0)).2 = (run (started c) (ts.flatMap Transfer.ops)).2
        ++ [.call a true, .read (x.txMem n) false]
      ∧ ∃ y, (run (started c) (ts.flatMap Transfer.ops ++ reading a 0)).1.slaves k = some y ∧ y.over = true := by
  have hI0 := inv_started c (given_ne hg)
  obtain ⟨_, _, y, h2, h3, h4, h5, _⟩ := handed_run c hv k n ts (started c) x 0 n hI0
    (started_idle c (given_ne hg)).1 (start_given hg) hp (by omega) (by simpa using hn) hpr hh
  have hI := inv_run c hv (started c) hI0 (ts.flatMap Transfer.ops)
  obtain ⟨g1, g2, g3, g4, _, _, _, g7⟩ := call_read c hv _ hI a k hk hb
  obtain ⟨hd, w, hw, _, _, _, _, _, _, a7⟩ := g7 y h2
  obtain ⟨f1, _, _, _, f5⟩ := read_last c _ g2 g3 k w g4 hw false (Or.inl rfl)
  obtain ⟨v, hv', hs⟩ := f5 k w hw
  rw [run_append]
  refine ⟨?_, v, hv', ?_⟩
  · show _ ++ [(step _ (.call a)).2, (step (step _ (.call a)).1 (.read false)).2] = _
    rw [g1, f1, hd, h3, h4]
  · rw [hs.2.2.2.2.2.2, a7]; simp [loaded, h5]

/-- **C89** The code does not check that the slave for general calls was set up: with general calls asked for and no such
slave, a general call makes the driver use a pointer that was never set. -/
theorem C89_general_call_unset (c : Config) (j : Nat) (x : Xfer) (m : Byte) (hj : 1 ≤ j ∧ j ≤ 4)
    (hg : given c j = some (x, m)) (hb : x.addr.getLsbD 0 = true) (h0 : given c 0 = none) :
    (step (started c) (.call 0#8)).1.undef = true := by
  have hI := inv_started c (given_ne hg)
  obtain ⟨hm, hcur, _, _, haa, _, _⟩ := started_idle c (given_ne hg)
  have hr : release (started c) = started c := by simp [release, hm]
  have hgc : generalCall (started c) = true := (general_iff c _ hI).mpr ⟨j, x, m, hj.1, hj.2, hg, hb⟩
  have hca : called (started c) 0#8 = some (0x70, .receiver true) := by
    simp [called, haa, hgc]
  have hs0 : (started c).slaves 0 = none := by rw [started_slaves, h0]; rfl
  simp only [step, hr, hca]
  simp [stateHandler, hcur, slaveIndex, lookup, hs0]

/-- **C89** The setup the header describes for general calls only (i2c.h:518-521, a slave with the address 0) answers
nothing, also no general call. -/
theorem C89_general_call_only (c : Config) (hc : c ≠ []) (h0 : ∀ e ∈ c, e.1 ≠ 0 → e.2.1.addr = 0#8) (a : Byte) :
    (step (started c) (.call a)).2 = .call a false := by
  have hI := inv_started c hc
  have hm := (started_idle c hc).1
  have hr : release (started c) = started c := by simp [release, hm]
  have hz : ∀ k, (started c).adr k = 0#8 := by
    intro k
    rw [started_adr]
    cases hg : given c (k + 1) with
    | none => rfl
    | some p => exact h0 _ (given_mem (x := p.1) (m := p.2) hg) (by simp)
  have hgc : generalCall (started c) = false := by simp [generalCall, hz]
  have how : ownAddress (started c) a = false := by simp [ownAddress, hz]
  have hca : called (started c) a = none := by simp [called, hgc, how]
  simp only [step, hr, hca]

/-! ## A program with two slaves and one for general calls -/

/-- A transfer with the bytes 10, 11, 12, ... to send. -/
def exXfer (addr : Byte) (tx rx : Int) : Xfer where
  addr := addr
  txMem := fun i => BitVec.ofNat 8 (10 + i)
  txPos := 0
  txSz := tx
  rx := []
  rxSz := rx
  done := false
  oob := false
  over := false

/-- Slave 1 at 0x40 with general calls and slave 2 at 0x50 and 0x52. -/
def exConfig : Config := [(0, exXfer 0#8 0 3, 0#8), (1, exXfer 0x41#8 2 4, 0#8), (2, exXfer 0x50#8 3 2, 0x02#8)]

theorem ex_valid : Valid exConfig where
  number := by intro e he; simp [exConfig] at he; rcases he with rfl | rfl | rfl <;> simp
  address := by intro e he; simp [exConfig] at he; rcases he with rfl | rfl | rfl <;> simp [exXfer]
  general := by intro e _ _ _; exact ⟨_, rfl⟩

theorem ex_same (d m a : Byte) (h : ((d &&& ~~~(m ||| 1#8)) == (a &&& ~~~(m ||| 1#8))) = true) : SameAddress d m a :=
  (same_iff d m a).mp h

/-- Slave 1 serves its address, for writing and for reading. -/
theorem ex_serves (a : Byte) (h : a = 0x40#8 ∨ a = 0x41#8) : Serves exConfig 1 a := by
  right
  refine ⟨by rcases h with rfl | rfl <;> decide, ⟨by omega, by omega, _, _, rfl, ?_⟩, fun j hj => hj.1⟩
  rcases h with rfl | rfl <;> exact ex_same _ _ _ (by decide)

/-- The general call is served by number 0. -/
example : Serves exConfig 0 0#8 := Or.inl ⟨rfl, rfl, 1, _, _, by omega, by omega, rfl, by decide⟩

/-- Slave 2 serves 0x52 because of its mask, slave 1 does not. -/
example : Serves exConfig 2 0x52#8 := by
  refine Or.inr ⟨by decide, ⟨by omega, by omega, _, _, rfl, ex_same _ _ _ (by decide)⟩, fun j hj => ?_⟩
  by_cases h : j = 1
  · subst h
    obtain ⟨_, _, x, m, hg, hs⟩ := hj
    have e : some (exXfer 0x41#8 2 4, 0#8) = some (x, m) := hg
    cases e
    have := (same_iff _ _ _).mpr hs
    exact absurd this (by decide)
  · have := hj.1; omega

/-- What is seen: three of four bytes are taken, the general call is answered, a foreign address is not, two bytes are read
of the buffer. -/
example : (run (started exConfig)
      (writing 0x40#8 [1#8, 2#8, 3#8, 4#8] ++ [.stop] ++ writing 0#8 [7#8] ++ [.call 0x60#8, .write 9#8, .stop]
        ++ reading 0x41#8 2)).2
    = [.call 0x40#8 true, .write 1#8 true, .write 2#8 true, .write 3#8 true, .write 4#8 false, .stop, .call 0#8 true,
       .write 7#8 true, .call 0x60#8 false, .write 9#8 false, .stop, .call 0x41#8 true, .read 10#8 true, .read 11#8 true,
       .read 0xff#8 false] := by decide +kernel

/-- The hypotheses of `C89_received`, `C89_acknowledged` and `C89_last_byte_refused`. -/
example : Valid exConfig ∧ given exConfig 1 = some (exXfer 0x41#8 2 4, 0#8) ∧ Serves exConfig 1 0x40#8
    ∧ (0x40#8).getLsbD 0 = false ∧ (exXfer 0x41#8 2 4).rxSz = ([1#8, 2#8, 3#8] ++ [4#8] : List Byte).length
    ∧ Took exConfig 1 false [.call 0x40#8 true, .write 1#8 true, .stop] [1#8] :=
  ⟨ex_valid, rfl, ex_serves _ (Or.inl rfl), by decide, rfl, .mine (ex_serves _ (Or.inl rfl)) (.byte (.stop (.nil _)))⟩

/-- The hypotheses of `C89_sent_partial` (one byte read, one left) and of `C89_beyond_the_buffer` (both read). -/
example : Handed exConfig 1 2 0 [.rd 0x41#8 0] 1 ∧ Handed exConfig 1 2 0 [.wr 0x40#8 [5#8], .rd 0x41#8 1] 2
    ∧ (∀ t ∈ [Transfer.wr 0x40#8 [5#8], .rd 0x41#8 1], t.Proper) ∧ (exXfer 0x41#8 2 4).txSz = (2 : Nat) := by
  have r : ∀ m, ReadsFrom exConfig 1 (.rd 0x41#8 m) := fun _ => ⟨ex_serves _ (Or.inr rfl), by decide⟩
  refine ⟨.mine (r 0) (by omega) (.nil _), .other (fun h => h) (.mine (r 1) (by omega) (.nil _)), ?_, rfl⟩
  intro t ht
  simp at ht
  rcases ht with rfl | rfl <;> (simp only [Transfer.Proper]; decide)

/-- The hypothesis of `C89_not_addressed`: nobody calls number 2. -/
example : ∀ a, BusOp.call a ∈ writing 0x40#8 [1#8, 2#8] → ¬ Serves exConfig 2 a := by
  intro a ha hs
  have : a = 0x40#8 := by simpa [writing] using ha
  subst this
  exact absurd (serves_unique hs (ex_serves _ (Or.inl rfl))) (by omega)

/-- The hypotheses of `C89_general_call_unset`. -/
example : given [(1, exXfer 0x41#8 2 4, 0#8)] 1 = some (exXfer 0x41#8 2 4, 0#8)
    ∧ (exXfer 0x41#8 2 4).addr.getLsbD 0 = true ∧ given [(1, exXfer 0x41#8 2 4, 0#8)] 0 = none :=
  ⟨rfl, by decide, rfl⟩

/-- The hypothesis of `C89_general_call_only`. -/
example : ∀ e ∈ ([(0, exXfer 0#8 0 3, 0#8), (1, exXfer 0#8 0 0, 0#8)] : Config), e.1 ≠ 0 → e.2.1.addr = 0#8 := by
  intro e he; simp at he; rcases he with rfl | rfl <;> simp [exXfer]

end Verif.I2c.Slave
