import Verif.Lcd.Spec
import Verif.Lcd.Font

/-!
# C98: what is written appears on the display
-/

namespace Verif.Lcd

theorem after_append (d : Chip) (s t : List (Bool × Byte)) :
    d.after (s ++ t) = (d.after s).after t := by simp [Chip.after]

theorem after_transfer (d : Chip) (l : Line) (v : Byte) :
    d.after (transfer v l).sent = (d.after l.sent).receive (l.cd, v) := by
  simp [transfer, Chip.after]

@[simp] theorem transfer_cd (v : Byte) (l : Line) : (transfer v l).cd = l.cd := rfl
@[simp] theorem setCD_cd (b : Bool) (l : Line) : (setCD b l).cd = b := rfl
@[simp] theorem setCD_sent (b : Bool) (l : Line) : (setCD b l).sent = l.sent := rfl

theorem transfers_cons (v : Byte) (vs : List Byte) (l : Line) :
    transfers (v :: vs) l = transfers vs (transfer v l) := rfl

theorem transfers_data (d : Chip) (vs : List Byte) : ∀ l : Line, l.cd = true →
    (transfers vs l).cd = true ∧
      d.after (transfers vs l).sent = vs.foldl Chip.data (d.after l.sent) := by
  induction vs with
  | nil => intro l h; exact ⟨h, rfl⟩
  | cons v vs ih =>
    intro l h
    rw [transfers_cons]
    obtain ⟨h1, h2⟩ := ih (transfer v l) h
    refine ⟨h1, ?_⟩
    rw [h2, after_transfer, h]
    rfl

/-- The display is ready for a command and its address is on the display. -/
structure Ready (d : Chip) : Prop where
  operand : d.operand = false
  show_ : d.showing
  col : d.col ≤ 131
  page : d.page ≤ 7

theorem data_fold (vs : List Byte) : ∀ d : Chip, Ready d →
    Ready (vs.foldl Chip.data d) ∧
      (vs.foldl Chip.data d).canvas = vs.foldl Canvas.draw d.canvas := by
  induction vs with
  | nil => intro d h; exact ⟨h, rfl⟩
  | cons v vs ih =>
    intro d h
    have hr : Ready (d.data v) :=
      ⟨h.operand, h.show_, by simp only [Chip.data]; omega, h.page⟩
    obtain ⟨h1, h2⟩ := ih (d.data v) hr
    exact ⟨h1, h2⟩

theorem lo_byte (v : Nat) (h : v < 16) : (0x00#8 ||| BitVec.ofNat 8 v).toNat = v := by
  have : ∀ w : Fin 16, (0x00#8 ||| BitVec.ofNat 8 w.val).toNat = w.val := by decide
  exact this ⟨v, h⟩

theorem hi_byte (v : Nat) (h : v < 16) : (0x10#8 ||| BitVec.ofNat 8 v).toNat = 16 + v := by
  have : ∀ w : Fin 16, (0x10#8 ||| BitVec.ofNat 8 w.val).toNat = 16 + w.val := by decide
  exact this ⟨v, h⟩

theorem page_byte (v : Nat) (h : v < 8) : (0xb0#8 ||| BitVec.ofNat 8 v).toNat = 0xb0 + v := by
  have : ∀ w : Fin 8, (0xb0#8 ||| BitVec.ofNat 8 w.val).toNat = 0xb0 + w.val := by decide
  exact this ⟨v, h⟩

theorem command_lo (d : Chip) (v : Nat) (h : v < 16) (ho : d.operand = false) :
    d.command (0x00#8 ||| BitVec.ofNat 8 v) = { d with col := d.col / 16 * 16 + v } := by
  unfold Chip.command
  simp only [ho, Bool.false_eq_true, if_false, lo_byte v h]
  rw [if_pos (by omega), Nat.mod_eq_of_lt h]

theorem command_hi (d : Chip) (v : Nat) (h : v < 16) (ho : d.operand = false) :
    d.command (0x10#8 ||| BitVec.ofNat 8 v) = { d with col := v * 16 + d.col % 16 } := by
  unfold Chip.command
  simp only [ho, Bool.false_eq_true, if_false, hi_byte v h]
  rw [if_neg (by omega), if_pos (by omega), Nat.add_mod_left, Nat.mod_eq_of_lt h]

theorem command_page (d : Chip) (v : Nat) (h : v < 8) (ho : d.operand = false) :
    d.command (0xb0#8 ||| BitVec.ofNat 8 v) = { d with page := v } := by
  unfold Chip.command
  simp only [ho, Bool.false_eq_true, if_false, page_byte v h]
  rw [if_neg (by omega), if_neg (by omega), if_neg (by omega), if_neg (by omega),
    if_neg (by omega), if_neg (by omega), if_neg (by omega), if_neg (by omega),
    if_pos (by omega)]
  have : (0xb0 + v) % 16 = v := by omega
  rw [this]

/-- `pos` sets the address. -/
theorem pos_chip (d : Chip) (x y : Nat) (hx : x ≤ 131) (hy : y ≤ 7) (l : Line)
    (ho : (d.after l.sent).operand = false) :
    d.after (pos x y l).sent = { d.after l.sent with col := x, page := y } := by
  have e1 : ((x : Int) % 16).toNat = x % 16 := by omega
  have e2 : ((x : Int) / 16 % 16).toNat = x / 16 := by omega
  have e3 : ((y : Int) % 8).toNat = y := by omega
  unfold pos
  rw [e1, e2, e3]
  simp only [after_transfer, transfer_cd, setCD_cd, setCD_sent, Chip.receive, Bool.false_eq_true,
    if_false]
  rw [command_lo _ _ (by omega) ho, command_hi _ _ (by omega) (by exact ho),
    command_page _ _ (by omega) (by exact ho)]
  have : x / 16 * 16 + ((d.after l.sent).col / 16 * 16 + x % 16) % 16 = x := by omega
  simp only [this]

theorem ready_pos (d : Chip) (h : Ready d) (x y : Nat) (hx : x ≤ 131) (hy : y ≤ 7) :
    Ready { d with col := x, page := y } := ⟨h.operand, h.show_, hx, hy⟩

theorem columns_eq (f : Font) : ∀ (n i : Nat) (l : Line), i + n ≤ f.data.length →
    columns f n i l = some (transfers ((f.data.drop i).take n) l) := by
  intro n
  induction n with
  | zero => intro i l _; simp [columns, transfers]
  | succ n ih =>
    intro i l h
    have hi : i < f.data.length := by omega
    unfold columns
    rw [List.getElem?_eq_getElem hi]
    simp only
    rw [ih (i + 1) _ (by omega), List.drop_eq_getElem_cons hi, List.take_succ_cons, transfers_cons]

/-- `write` of a character of the font sends its columns as data. -/
theorem write_eq (f : Font) (hv : f.Valid) (ch : Byte) (l : Line) :
    write f ch l = if f.has ch then some (transfers (f.glyph ch) (setCD true l), 1)
      else some (l, 0) := by
  obtain ⟨n0, w0, hl⟩ := hv
  unfold write
  by_cases h : f.has ch = true
  · have h' : f.firstChar ≤ (ch.toNat : Int) ∧ (ch.toNat : Int) < f.firstChar + f.numChars := by
      simpa [Font.has] using h
    rw [if_pos h]
    dsimp only
    rw [if_neg (by omega)]
    have k0 : 0 ≤ ((ch.toNat : Int) - f.firstChar) * f.charWidth :=
      Int.mul_nonneg (by omega) w0
    have k1 : ((ch.toNat : Int) - f.firstChar) * f.charWidth + f.charWidth ≤
        f.numChars * f.charWidth := by
      have : ((ch.toNat : Int) - f.firstChar + 1) * f.charWidth ≤ f.numChars * f.charWidth :=
        Int.mul_le_mul_of_nonneg_right (by omega) w0
      rwa [Int.add_mul, Int.one_mul] at this
    rw [columns_eq f _ _ _ (by omega)]
    rfl
  · rw [if_neg h]
    have h' : ¬ (f.firstChar ≤ (ch.toNat : Int) ∧
        (ch.toNat : Int) < f.firstChar + f.numChars) := by
      simpa [Font.has] using h
    dsimp only
    rw [if_pos (by omega)]

theorem text_cons (f : Font) (ch : Byte) (t : List Byte) :
    f.text (ch :: t) = (if f.has ch then f.glyph ch else []) ++ f.text t := by
  unfold Font.text
  by_cases h : f.has ch = true
  · simp [h]
  · simp [h]

theorem print_chip (f : Font) (hv : f.Valid) (d : Chip) (t : List Byte) : ∀ l : Line,
    Ready (d.after l.sent) →
    ∃ l', print f t l = some (l', (t.filter f.has).length) ∧ Ready (d.after l'.sent) ∧
      (d.after l'.sent).canvas = (f.text t).foldl Canvas.draw (d.after l.sent).canvas := by
  induction t with
  | nil => intro l h; exact ⟨l, rfl, h, rfl⟩
  | cons ch t ih =>
    intro l h
    unfold print
    rw [write_eq f hv, text_cons]
    by_cases hc : f.has ch = true
    · simp only [hc, if_true]
      obtain ⟨h1, h2⟩ := transfers_data d (f.glyph ch) (setCD true l) rfl
      rw [setCD_sent] at h2
      obtain ⟨r1, r2⟩ := data_fold (f.glyph ch) _ h
      rw [← h2] at r1 r2
      obtain ⟨l', e, r, c⟩ := ih _ r1
      refine ⟨l', ?_, r, ?_⟩
      · rw [e]
        simp [hc, Nat.add_comm]
      · rw [c, r2, List.foldl_append]
    · simp only [hc, if_false]
      obtain ⟨l', e, r, c⟩ := ih l h
      refine ⟨l', ?_, r, c⟩
      simp only [Bool.false_eq_true, if_false, e]
      simp [hc]

/-- Drawing from the left: while the columns fit, each is where it belongs. -/
theorem draw_from (vs : List Byte) : ∀ (v : Canvas), v.x + vs.length ≤ 132 →
    (∀ p c, p = v.y → v.x ≤ c → c < v.x + vs.length →
      (vs.foldl Canvas.draw v).cell p c = vs.getD (c - v.x) 0#8) ∧
    (∀ p c, ¬ (p = v.y ∧ v.x ≤ c ∧ c < v.x + vs.length) →
      (vs.foldl Canvas.draw v).cell p c = v.cell p c) ∧
    (vs.foldl Canvas.draw v).y = v.y ∧ (vs.foldl Canvas.draw v).inverse = v.inverse := by
  induction vs with
  | nil =>
    intro v _
    exact ⟨fun p c _ h1 h2 => by simp only [List.length_nil] at h2; omega, fun _ _ _ => rfl, rfl,
      rfl⟩
  | cons b vs ih =>
    intro v h
    simp only [List.length_cons] at h
    rw [List.foldl_cons]
    by_cases hvs : vs = []
    · subst hvs
      refine ⟨fun p c hp h1 h2 => ?_, fun p c hn => ?_, rfl, rfl⟩
      · simp only [List.length_cons, List.length_nil] at h2
        have hc : c = v.x := by omega
        simp only [List.foldl_nil, Canvas.draw, setCell]
        rw [if_pos ⟨hp, hc⟩, hc, Nat.sub_self]
        rfl
      · simp only [List.length_cons, List.length_nil] at hn
        simp only [List.foldl_nil, Canvas.draw, setCell]
        rw [if_neg (by omega)]
    · have hlen : 1 ≤ vs.length := by
        cases vs with
        | nil => exact absurd rfl hvs
        | cons _ _ => simp
      have hx : (v.draw b).x = v.x + 1 := by simp only [Canvas.draw]; omega
      have hy : (v.draw b).y = v.y := rfl
      obtain ⟨h1, h2, h3, h4⟩ := ih (v.draw b) (by rw [hx]; omega)
      rw [hx, hy] at h1 h2
      refine ⟨fun p c hp k1 k2 => ?_, fun p c hn => ?_, h3, h4⟩
      · simp only [List.length_cons] at k2
        by_cases k : c = v.x
        · rw [h2 p c (by omega), k, Nat.sub_self]
          simp only [Canvas.draw, setCell]
          rw [if_pos ⟨hp, trivial⟩]
          rfl
        · rw [h1 p c hp (by omega) (by omega)]
          have : c - v.x = (c - (v.x + 1)) + 1 := by omega
          rw [this, List.getD_cons_succ]
      · simp only [List.length_cons] at hn
        rw [h2 p c (by omega)]
        simp only [Canvas.draw, setCell]
        rw [if_neg (by omega)]

theorem clear_pages (d : Chip) (blank : List Byte) (hb : blank.length = 102)
    (hz : ∀ i, blank.getD i 0#8 = 0#8) (n : Nat) : ∀ (l : Line), n ≤ 8 → Ready (d.after l.sent) →
    let l' := (List.range n).foldl (fun l (y : Nat) =>
      let l := pos 0 y l
      let l := setCD true l
      transfers blank l) l
    Ready (d.after l'.sent) ∧
      (d.after l'.sent).cell = (fun p c => if p < n ∧ c ≤ 101 then 0#8 else
        (d.after l.sent).cell p c) ∧
      (d.after l'.sent).inverse = (d.after l.sent).inverse := by
  induction n with
  | zero =>
    intro l _ h
    refine ⟨h, ?_, rfl⟩
    funext p c
    rw [if_neg (by omega)]
    rfl
  | succ n ih =>
    intro l hn h
    obtain ⟨r, c, v⟩ := ih l (by omega) h
    simp only [List.range_succ, List.foldl_append, List.foldl_cons, List.foldl_nil] at *
    generalize (List.range n).foldl (fun l (y : Nat) =>
      transfers blank (setCD true (pos 0 (y : Int) l))) l = l1 at *
    have hp := pos_chip d 0 n (by omega) (by omega) l1 r.operand
    have r2 := ready_pos _ r 0 n (by omega) (by omega)
    obtain ⟨_, h2⟩ := transfers_data d blank (setCD true (pos 0 n l1)) rfl
    rw [setCD_sent] at h2
    have hp' : d.after (pos 0 (n : Int) l1).sent = _ := hp
    rw [hp'] at h2
    obtain ⟨r3, c3⟩ := data_fold blank _ r2
    rw [← h2] at r3 c3
    obtain ⟨q1, q2, q3, q4⟩ := draw_from blank
      ({ d.after l1.sent with col := 0, page := n } : Chip).canvas (by show 0 + _ ≤ 132; omega)
    rw [← c3] at q1 q2 q4
    refine ⟨r3, ?_, q4.trans v⟩
    funext p q
    have hq1 : p = n → q < 102 → (d.after (transfers blank
        (setCD true (pos 0 (n : Int) l1))).sent).cell p q = 0#8 := by
      intro k1 k2
      refine (q1 p q k1 (Nat.zero_le _) (by show q < 0 + _; omega)).trans ?_
      exact hz _
    have hq2 : ¬ (p = n ∧ q < 102) → (d.after (transfers blank
        (setCD true (pos 0 (n : Int) l1))).sent).cell p q = (d.after l1.sent).cell p q := by
      intro k
      refine q2 p q ?_
      rintro ⟨k1, _, k3⟩
      refine k ⟨k1, ?_⟩
      have : q < 0 + blank.length := k3
      omega
    by_cases h1 : p = n ∧ q < 102
    · rw [hq1 h1.1 h1.2, if_pos (by omega)]
    · rw [hq2 h1, c]
      dsimp only
      by_cases h3 : p < n ∧ q ≤ 101
      · rw [if_pos h3, if_pos (by omega)]
      · rw [if_neg h3, if_neg (by omega)]

/-! ## `begin` -/

/-- The commands of `begin` and the address of its test code. -/
theorem begin_chip (d : Chip) (l : Line)
    (hl : (d.after l.sent).operand = false) :
    d.after (begin l).sent = ((List.range 255).map (BitVec.ofNat 8)).foldl Chip.data
      ⟨(d.after l.sent).cell, 0, 0, false, false, true, 7, 0, false⟩ := by
  unfold begin
  generalize (List.range 255).map (BitVec.ofNat 8) = vals
  dsimp only
  rw [(transfers_data d vals _ rfl).2]
  refine congrArg (fun z => List.foldl Chip.data z vals) ?_
  simp only [setCD_sent, after_transfer, transfer_cd, setCD_cd, Chip.receive, Bool.false_eq_true,
    if_false]
  simp [Chip.command, hl]

theorem begin_ready (d : Chip) (l : Line) (hl : (d.after l.sent).operand = false) :
    Ready (d.after (begin l).sent) := by
  rw [begin_chip d l hl]
  exact (data_fold _ _ ⟨rfl, ⟨rfl, rfl, rfl, rfl⟩, Nat.zero_le _, Nat.zero_le _⟩).1

theorem inverse_chip (d : Chip) (b : Bool) (l : Line) (ho : (d.after l.sent).operand = false) :
    d.after (inverse b l).sent = { d.after l.sent with inverse := b } := by
  unfold inverse
  rw [after_transfer]
  simp only [setCD_cd, setCD_sent, Chip.receive, Bool.false_eq_true, if_false]
  cases b <;> simp [Chip.command, ho]

theorem getD_zeros (n i : Nat) : (List.replicate n (0#8 : Byte)).getD i 0#8 = 0#8 := by
  rw [List.getD_eq_getElem?_getD, List.getElem?_replicate]
  by_cases h : i < n
  · rw [if_pos h]; rfl
  · rw [if_neg h]; rfl

theorem clear_chip (d : Chip) (l : Line) (h : Ready (d.after l.sent)) :
    Ready (d.after (clear l).sent) ∧
      (d.after (clear l).sent).canvas = Canvas.call font5x7 (d.after l.sent).canvas .clear := by
  obtain ⟨r, c, v⟩ := clear_pages d (List.replicate 102 0#8) List.length_replicate
    (fun i => getD_zeros 102 i) 8 l (by omega) h
  unfold clear
  dsimp only at r c v ⊢
  generalize (List.range 8).foldl (fun l (y : Nat) =>
    transfers (List.replicate 102 0#8) (setCD true (pos 0 (y : Int) l))) l = l1 at *
  have hp : d.after (pos 0 0 l1).sent = _ := pos_chip d 0 0 (by omega) (by omega) l1 r.operand
  rw [hp]
  refine ⟨ready_pos _ r 0 0 (by omega) (by omega), ?_⟩
  simp only [Chip.canvas, Canvas.call, Canvas.mk.injEq]
  refine ⟨?_, trivial, trivial, v⟩
  rw [c]
  funext p q
  by_cases k : p < 8 ∧ q ≤ 101
  · rw [if_pos k, if_pos (by omega)]
  · rw [if_neg k, if_neg (by omega)]

theorem call_chip (f : Font) (hv : f.Valid) (d : Chip) (c : Call) (hc : c.Allowed) (l : Line)
    (h : Ready (d.after l.sent)) :
    ∃ l', call f c l = some l' ∧ Ready (d.after l'.sent) ∧
      (d.after l'.sent).canvas = Canvas.call f (d.after l.sent).canvas c := by
  cases c with
  | pos x y =>
    refine ⟨_, rfl, ?_, ?_⟩
    · rw [pos_chip d x y hc.1 hc.2 l h.operand]
      exact ready_pos _ h x y hc.1 hc.2
    · rw [pos_chip d x y hc.1 hc.2 l h.operand]
      rfl
  | inverse b =>
    refine ⟨_, rfl, ?_, ?_⟩
    · rw [inverse_chip d b l h.operand]
      exact ⟨h.operand, h.show_, h.col, h.page⟩
    · rw [inverse_chip d b l h.operand]
      rfl
  | write ch =>
    obtain ⟨l', e, r, k⟩ := print_chip f hv d [ch] l h
    refine ⟨l', ?_, r, k⟩
    unfold print at e
    show (write f ch l).map (·.1) = some l'
    cases hw : write f ch l with
    | none => rw [hw] at e; cases e
    | some q =>
      rw [hw] at e
      simp only [print, Option.some.injEq, Prod.mk.injEq] at e
      rw [← e.1]
      rfl
  | print t =>
    obtain ⟨l', e, r, k⟩ := print_chip f hv d t l h
    exact ⟨l', by simp [call, e], r, k⟩
  | clear => exact ⟨_, rfl, (clear_chip d l h).1, (clear_chip d l h).2⟩

theorem calls_chip (f : Font) (hv : f.Valid) (d : Chip) (cs : List Call) : ∀ l : Line,
    (∀ c ∈ cs, c.Allowed) → Ready (d.after l.sent) →
    ∃ l', calls f cs l = some l' ∧ Ready (d.after l'.sent) ∧
      (d.after l'.sent).canvas = cs.foldl (Canvas.call f) (d.after l.sent).canvas := by
  induction cs with
  | nil => intro l _ h; exact ⟨l, rfl, h, rfl⟩
  | cons c cs ih =>
    intro l hc h
    obtain ⟨l1, e1, r1, k1⟩ := call_chip f hv d c (hc c (by simp)) l h
    obtain ⟨l2, e2, r2, k2⟩ := ih l1 (fun c' h' => hc c' (by simp [h'])) r1
    exact ⟨l2, by simp [calls, e1, e2], r2, by rw [k2, k1]; rfl⟩

/-- At the last column only that column is drawn. -/
theorem draw_last (vs : List Byte) : ∀ (v : Canvas), v.x = 131 →
    ∀ p c, ¬ (p = v.y ∧ c = 131) → (vs.foldl Canvas.draw v).cell p c = v.cell p c := by
  induction vs with
  | nil => intro v _ p c _; rfl
  | cons b vs ih =>
    intro v h p c hn
    rw [List.foldl_cons, ih (v.draw b) (by simp only [Canvas.draw]; omega) p c hn]
    simp only [Canvas.draw, setCell]
    rw [if_neg (by rw [h]; exact hn)]

theorem draw_x (vs : List Byte) : ∀ (v : Canvas), v.x + vs.length ≤ 131 →
    (vs.foldl Canvas.draw v).x = v.x + vs.length := by
  induction vs with
  | nil => intro v _; rfl
  | cons b vs ih =>
    intro v h
    simp only [List.length_cons] at h ⊢
    rw [List.foldl_cons, ih (v.draw b) (by simp only [Canvas.draw]; omega)]
    simp only [Canvas.draw]
    omega

/-! ## The property -/

/-- The line before the first byte. -/
def quiet (level : Bool) : Line := ⟨level, []⟩

/-- **C98.** For every font whose data have the announced size and every sequence of calls after
`begin`, no byte outside the font is read, the display is on and shows what the same calls do
on a canvas, starting with what was on the display after `begin`. -/
theorem C98_canvas (f : Font) (hv : f.Valid) (d : Chip) (hd : d.operand = false) (level : Bool)
    (cs : List Call) (hc : ∀ c ∈ cs, c.Allowed) :
    ∃ l, calls f cs (begin (quiet level)) = some l ∧ (d.after l.sent).showing ∧
      (d.after l.sent).canvas =
        cs.foldl (Canvas.call f) (d.after (begin (quiet level)).sent).canvas := by
  obtain ⟨l, e, r, k⟩ := calls_chip f hv d cs _ hc (begin_ready d (quiet level) hd)
  exact ⟨l, e, r.show_, k⟩

/-- **C98.** In particular a text printed at `x`, `y` appears there, if it fits: the columns of
its characters stand one after the other in page `y` from column `x` on, every other column is
as it was before, and the result is the number of characters the font has. -/
theorem C98_text (f : Font) (hv : f.Valid) (d : Chip) (hd : d.operand = false) (level : Bool)
    (cs : List Call) (hc : ∀ c ∈ cs, c.Allowed) (x y : Nat) (hx : x ≤ 131) (hy : y ≤ 7)
    (t : List Byte) (hfit : x + (f.text t).length ≤ 132) :
    ∃ l l', calls f cs (begin (quiet level)) = some l ∧
      print f t (pos x y l) = some (l', (t.filter f.has).length) ∧
      (∀ i, i < (f.text t).length →
        (d.after l'.sent).cell y (x + i) = (f.text t).getD i 0#8) ∧
      (∀ p c, ¬ (p = y ∧ x ≤ c ∧ c < x + (f.text t).length) →
        (d.after l'.sent).cell p c = (d.after l.sent).cell p c) := by
  obtain ⟨l, e, r, k⟩ := calls_chip f hv d cs _ hc (begin_ready d (quiet level) hd)
  have hp := pos_chip d x y hx hy l r.operand
  have rp : Ready (d.after (pos x y l).sent) := by rw [hp]; exact ready_pos _ r x y hx hy
  obtain ⟨l', e', r', k'⟩ := print_chip f hv d t _ rp
  rw [hp] at k'
  obtain ⟨q1, q2, _, _⟩ := draw_from (f.text t)
    ({ d.after l.sent with col := x, page := y } : Chip).canvas hfit
  rw [← k'] at q1 q2
  refine ⟨l, l', e, e', fun i hi => ?_, fun p c hn => q2 p c hn⟩
  have := q1 y (x + i) rfl (Nat.le_add_right _ _) (Nat.add_lt_add_left hi x)
  refine this.trans ?_
  show (f.text t).getD (x + i - x) 0#8 = _
  rw [Nat.add_sub_cancel_left]

/-- **C98.** The font `font_5x7` has the characters 32 to 127, each of its own shape. -/
theorem C98_font : font5x7.Valid ∧
    (∀ ch : Byte, font5x7.has ch = true ↔ 32 ≤ ch.toNat ∧ ch.toNat ≤ 127) ∧
    (∀ a b : Byte, font5x7.has a = true → font5x7.has b = true →
      font5x7.glyph a = font5x7.glyph b → a = b) := by
  refine ⟨⟨by decide +kernel, by decide +kernel, by decide +kernel⟩, by decide +kernel, ?_⟩
  have key : ((List.range 96).map fun i => font5x7.glyph (BitVec.ofNat 8 (32 + i))).Nodup := by
    decide +kernel
  have has : ∀ ch : Byte, font5x7.has ch = true ↔ 32 ≤ ch.toNat ∧ ch.toNat ≤ 127 := by
    decide +kernel
  intro a b ha hb h
  obtain ⟨a1, a2⟩ := (has a).1 ha
  obtain ⟨b1, b2⟩ := (has b).1 hb
  have ea : BitVec.ofNat 8 (32 + (a.toNat - 32)) = a := by
    apply BitVec.eq_of_toNat_eq
    rw [BitVec.toNat_ofNat]
    omega
  have eb : BitVec.ofNat 8 (32 + (b.toNat - 32)) = b := by
    apply BitVec.eq_of_toNat_eq
    rw [BitVec.toNat_ofNat]
    omega
  have hij := (List.nodup_iff_pairwise_ne.1 key)
  rw [List.pairwise_map] at hij
  rw [List.pairwise_iff_getElem] at hij
  apply BitVec.eq_of_toNat_eq
  by_cases lt : a.toNat < b.toNat
  · have := hij (a.toNat - 32) (b.toNat - 32) (by simp; omega) (by simp; omega) (by omega)
    simp only [List.getElem_range, ea, eb] at this
    exact absurd h this
  · by_cases gt : b.toNat < a.toNat
    · have := hij (b.toNat - 32) (a.toNat - 32) (by simp; omega) (by simp; omega) (by omega)
      simp only [List.getElem_range, ea, eb] at this
      exact absurd h.symm this
    · omega

/-- **C98**, finding.  The test code in `begin` leaves its pattern on the display: column `c` of
page 0 holds the number `c`.  The reset does not clear the memory either: all other pages show
what was in it. -/
theorem C98_begin_pattern (d : Chip) (hd : d.operand = false) (level : Bool) :
    (∀ c, c ≤ 130 → (d.after (begin (quiet level)).sent).cell 0 c = BitVec.ofNat 8 c) ∧
    (∀ p c, p ≠ 0 → (d.after (begin (quiet level)).sent).cell p c = d.cell p c) := by
  rw [begin_chip d (quiet level) hd]
  generalize hd' : (⟨(d.after (quiet level).sent).cell, 0, 0, false, false, true, 7, 0, false⟩ :
    Chip) = d0
  have hr : Ready d0 := by
    rw [← hd']; exact ⟨rfl, ⟨rfl, rfl, rfl, rfl⟩, Nat.zero_le _, Nat.zero_le _⟩
  have hsplit : (List.range 255).map (BitVec.ofNat 8) =
      (List.range 131).map (BitVec.ofNat 8) ++
        ((List.range 124).map (131 + ·)).map (BitVec.ofNat 8) := by
    rw [← List.map_append, ← List.range_add]
  have hcell : ∀ p c, (((List.range 255).map (BitVec.ofNat 8)).foldl Chip.data d0).cell p c =
      (((List.range 255).map (BitVec.ofNat 8)).foldl Canvas.draw d0.canvas).cell p c := by
    intro p c
    rw [← (data_fold _ d0 hr).2]
    rfl
  have h0 : d0.canvas.x = 0 := by rw [← hd']; rfl
  have h0y : d0.canvas.y = 0 := by rw [← hd']; rfl
  have h0c : d0.canvas.cell = d.cell := by rw [← hd']; rfl
  have hlen : ((List.range 131).map (BitVec.ofNat 8)).length = 131 := by
    rw [List.length_map, List.length_range]
  have hget : ∀ c, c ≤ 130 → ((List.range 131).map (BitVec.ofNat 8)).getD c 0#8 =
      BitVec.ofNat 8 c := by
    intro c hc
    rw [List.getD_eq_getElem?_getD, List.getElem?_map,
      List.getElem?_range (by omega)]
    rfl
  simp only [hcell]
  simp only [hsplit, List.foldl_append]
  generalize (List.range 131).map (BitVec.ofNat 8) = as at hlen hget
  generalize ((List.range 124).map (131 + ·)).map (BitVec.ofNat 8) = bs
  obtain ⟨q1, q2, q3, _⟩ := draw_from as d0.canvas (by omega)
  have hx := draw_x as d0.canvas (by omega)
  have hl := draw_last bs (as.foldl Canvas.draw d0.canvas) (by omega)
  rw [q3, h0y] at hl
  rw [h0y, h0, hlen] at q1 q2
  rw [h0c] at q2
  refine ⟨fun c hc => ?_, fun p c hp => ?_⟩
  · rw [hl 0 c (by omega), q1 0 c rfl (by omega) (by omega)]
    exact hget c hc
  · rw [hl p c (by omega), q2 p c (by omega)]

/-- **C98**, finding.  A line end does nothing: `println` does not go to the next line. -/
theorem C98_newline (c : Canvas) (t : List Byte) :
    Canvas.call font5x7 c (.print (t ++ [13#8, 10#8])) = Canvas.call font5x7 c (.print t) := by
  have : font5x7.text (t ++ [13#8, 10#8]) = font5x7.text t := by
    unfold Font.text
    rw [List.filter_append]
    have h : [13#8, 10#8].filter font5x7.has = [] := by decide +kernel
    rw [h, List.append_nil]
  simp only [Canvas.call, this]

/-! ## The hypotheses are met -/

/-- A small font of two characters of two columns. -/
def tinyFont : Font := ⟨65, 2, 2, [0x11#8, 0x22#8, 0x33#8, 0x44#8]⟩

/-- A display whose memory holds 0xee everywhere after power-on. -/
def powerOn : Chip := ⟨fun _ _ => 0xee#8, 7, 3, true, true, false, 0, 5, false⟩

example : tinyFont.Valid ∧ powerOn.operand = false ∧ ¬ powerOn.showing :=
  ⟨⟨by decide, by decide, by decide⟩, rfl, fun h => by cases h.1⟩

example : ∀ c ∈ [Call.clear, .pos 3 2, .print [65#8, 10#8, 66#8], .inverse true], c.Allowed := by
  simp [Call.Allowed]

/-- The text "A\nB" at column 3 of page 2. -/
example : ∃ l l', calls tinyFont [.clear] (begin (quiet false)) = some l ∧
    print tinyFont [65#8, 10#8, 66#8] (pos 3 2 l) = some (l', 2) ∧
    (powerOn.after l'.sent).cell 2 5 = 0x33#8 ∧
    (powerOn.after l'.sent).cell 2 7 = (powerOn.after l.sent).cell 2 7 := by
  obtain ⟨l, l', e, e', h1, h2⟩ := C98_text tinyFont ⟨by decide, by decide, by decide⟩ powerOn rfl
    false [.clear] (by simp [Call.Allowed]) 3 2 (by omega) (by omega) [65#8, 10#8, 66#8] (by decide)
  exact ⟨l, l', e, e', h1 2 (by decide), h2 2 7 (by decide)⟩

/-- The letter A of the font: the columns 7e, 11, 11, 11, 7e. -/
example : font5x7.glyph 65#8 = [0x7e#8, 0x11#8, 0x11#8, 0x11#8, 0x7e#8] := by decide +kernel

end Verif.Lcd
