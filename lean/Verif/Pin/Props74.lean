import Verif.Pin.Spec

/-!
# C74: configuration of the pins
-/

namespace Verif.Pin

open Verif Spec

/-! ## Tables (all 42 pins, all functions) -/

theorem mem_fns (f : Fn) : f ∈ fns := by cases f <;> decide

theorem t_pin : ∀ x ∈ pins, digitalPinToPort (constant x.1 x.2) = x.1 ∧ digitalPinToPinNum (constant x.1 x.2) = x.2 ∧ x.1 < 4 ∧ x.2 < 12 ∧
    ioconPointer (constant x.1 x.2) = offsetOf (.pio x.1 x.2) ∧ ioconPointer2 x.1 x.2 = offsetOf (.pio x.1 x.2) ∧
    (decide (constant x.1 x.2 &&& PFL_ADMODE ≠ 0#32) = analog x.1 x.2) := by decide +kernel

theorem t_number : ∀ x ∈ pins, ∀ f ∈ fns, f ≠ .none → getPinFunctionNumber (constant x.1 x.2) f.code = number x.1 x.2 f := by decide +kernel

/-- The location is set by this part of the code. -/
def bySpi (f : Fn) (p n : Nat) : Bool := (f = .miso ∨ f = .mosi ∨ f = .sck ∨ f = .ssel) ∧ ¬ (f = .ssel ∧ p = 2 ∧ n = 0)

theorem t_spi : ∀ x ∈ pins, ∀ f ∈ fns, f ≠ .none → number x.1 x.2 f ≠ none → spiLoc (constant x.1 x.2) f.code =
    if bySpi f x.1 x.2 then (location f x.1 x.2).map (fun y => (y.1, BitVec.ofNat 32 y.2)) else none := by decide +kernel

theorem t_capture : ∀ x ∈ pins, captureLoc (constant x.1 x.2) = (location .cap x.1 x.2).map (fun y => (y.1, BitVec.ofNat 32 y.2)) := by decide +kernel

theorem t_rxd : ∀ x ∈ pins, (pinLocation (constant x.1 x.2) rxPinLocation 0).map (fun i => (Loc.rxd, BitVec.ofNat 32 i)) =
    (location .rxd x.1 x.2).map (fun y => (y.1, BitVec.ofNat 32 y.2)) ∧
    ((location .rxd x.1 x.2).isSome = (number x.1 x.2 .rxd).isSome) := by decide +kernel

theorem t_offset : ∀ x ∈ pins, ∀ y ∈ pins, offsetOf (.pio x.1 x.2) = offsetOf (.pio y.1 y.2) → x = y := by decide +kernel

def locs : List Loc := [.ssel1, .sck, .dsr, .dcd, .ri, .ct16b0cap0, .sck1, .miso1, .mosi1, .ct32b0cap0, .rxd]

theorem t_offset_loc : ∀ x ∈ pins, ∀ l ∈ locs, offsetOf (.pio x.1 x.2) ≠ offsetOf (.loc l) := by decide +kernel

theorem t_loc : ∀ k ∈ locs, ∀ l ∈ locs, offsetOf (.loc k) = offsetOf (.loc l) → k = l := by decide +kernel

theorem mem_locs (l : Loc) : l ∈ locs := by cases l <;> decide

/-! ## The argument -/

theorem mode_type (u : Use) (opts : U32) : u.mode opts &&& 0xf000#32 = u.type := by
  have h1 : ∀ f ∈ fns, (BitVec.ofNat 32 f.code <<< 18 : U32) &&& 0xf000#32 = 0#32 := by decide +kernel
  have h2 : (opts &&& 0x438#32) &&& 0xf000#32 = 0#32 := by
    rw [BitVec.and_assoc]; exact BitVec.and_zero
  unfold Use.mode
  have dist : ∀ a b c : U32, (a ||| b) &&& c = a &&& c ||| b &&& c := fun a b c => by
    rw [BitVec.and_comm, BitVec.and_or_distrib_left, BitVec.and_comm c, BitVec.and_comm c]
  rw [dist, dist, h1 _ (mem_fns _), h2, BitVec.or_zero, BitVec.or_zero]
  cases u <;> (simp only [Use.type]; decide)

theorem mode_opts (u : Use) (opts : U32) : u.mode opts &&& 0xfff#32 = opts &&& 0x438#32 := by
  have h1 : ∀ f ∈ fns, (BitVec.ofNat 32 f.code <<< 18 : U32) &&& 0xfff#32 = 0#32 := by decide +kernel
  have h2 : (opts &&& 0x438#32) &&& 0xfff#32 = opts &&& 0x438#32 := by
    rw [BitVec.and_assoc]; rfl
  unfold Use.mode
  have dist : ∀ a b c : U32, (a ||| b) &&& c = a &&& c ||| b &&& c := fun a b c => by
    rw [BitVec.and_comm, BitVec.and_or_distrib_left, BitVec.and_comm c, BitVec.and_comm c]
  rw [dist, dist, h1 _ (mem_fns _), h2, BitVec.or_zero]
  have : u.type &&& 0xfff#32 = 0#32 := by cases u <;> (simp only [Use.type]; decide)
  rw [this, BitVec.zero_or]

theorem mode_func (u : Use) (opts : U32) : (u.mode opts >>> 18 &&& 31#32).toNat = u.given.code := by
  have h1 : ∀ f ∈ fns, ((BitVec.ofNat 32 f.code <<< 18 : U32) >>> 18 &&& 31#32).toNat = f.code := by decide +kernel
  have h2 : (opts &&& 0x438#32) >>> 18 = 0#32 := by
    apply BitVec.eq_of_toNat_eq
    rw [BitVec.toNat_ushiftRight, BitVec.toNat_and]
    have : opts.toNat &&& 1080 ≤ 1080 := Nat.and_le_right
    show (opts.toNat &&& 1080) >>> 18 = 0
    rw [Nat.shiftRight_eq_div_pow]
    exact Nat.div_eq_of_lt (by omega)
  unfold Use.mode
  have dist : ∀ a b : U32, (a ||| b) >>> 18 = a >>> 18 ||| b >>> 18 := fun a b => by
    apply BitVec.eq_of_getLsbD_eq
    intro i hi
    simp only [BitVec.getLsbD_or, BitVec.getLsbD_ushiftRight]
  have h3 : u.type >>> 18 = 0#32 := by cases u <;> (simp only [Use.type]; decide)
  rw [dist, dist, h2, h3, BitVec.or_zero, BitVec.zero_or]
  exact h1 _ (mem_fns _)

/-! ## What the parts do -/

/-- The registers after a pin has been configured. -/
structure Configured (s s' : State) (p n : Nat) (value : U32) (loc : Option (Loc × U32)) : Prop where
  pin : reg s' (.pio p n) = value
  place : ∀ l, reg s' (.loc l) = match loc with
    | some (k, v) => if l = k then v else reg s (.loc l)
    | none => reg s (.loc l)
  others : ∀ x ∈ pins, x ≠ (p, n) → reg s' (.pio x.1 x.2) = reg s (.pio x.1 x.2)

theorem setLoc_place (s : State) (x : Option (Loc × U32)) (l : Loc) : reg (setLoc s x) (.loc l) = match x with
    | some (k, v) => if l = k then v else reg s (.loc l)
    | none => reg s (.loc l) := by
  cases x with
  | none => rfl
  | some y =>
    obtain ⟨k, v⟩ := y
    show (if offsetOf (.loc l) = offsetOf (.loc k) then v else s.iocon (offsetOf (.loc l))) = if l = k then v else reg s (.loc l)
    by_cases h : l = k
    · subst h; rw [if_pos rfl, if_pos rfl]
    · rw [if_neg h, if_neg (fun q => h (t_loc _ (mem_locs _) _ (mem_locs _) q))]
      rfl

theorem setLoc_pin (s : State) (o : Option (Loc × U32)) {x : Nat × Nat} (hx : x ∈ pins) : reg (setLoc s o) (.pio x.1 x.2) = reg s (.pio x.1 x.2) := by
  cases o with
  | none => rfl
  | some y =>
    show (if offsetOf (.pio x.1 x.2) = offsetOf (.loc y.1) then y.2 else s.iocon (offsetOf (.pio x.1 x.2))) = _
    rw [if_neg (t_offset_loc x hx y.1 (mem_locs _))]
    rfl

theorem setLoc_port (s : State) (o : Option (Loc × U32)) : (setLoc s o).port = s.port := by
  cases o <;> rfl

theorem setPort_reg (s : State) (p : Nat) (f : Port → Port) (r : Reg) : reg (setPort s p f) r = reg s r := rfl

theorem setIocon_reg (s : State) {p n : Nat} (hp : (p, n) ∈ pins) (v : U32) :
    reg (setIocon s (offsetOf (.pio p n)) v) (.pio p n) = v ∧
    (∀ x ∈ pins, x ≠ (p, n) → reg (setIocon s (offsetOf (.pio p n)) v) (.pio x.1 x.2) = reg s (.pio x.1 x.2)) ∧
    (∀ l, reg (setIocon s (offsetOf (.pio p n)) v) (.loc l) = reg s (.loc l)) := by
  refine ⟨if_pos rfl, fun x hx hne => if_neg fun q => hne (t_offset x hx (p, n) hp q), fun l => if_neg fun q =>
    t_offset_loc (p, n) hp l (mem_locs _) q.symm⟩

theorem pinFunc_spec (s : State) {p n : Nat} (hp : (p, n) ∈ pins) (iocon : U32) (f : Fn) (hf : f ≠ .none) :
    match number p n f with
    | none => pinFunc s (constant p n) iocon f.code = none
    | some k => ∃ s', pinFunc s (constant p n) iocon f.code = some s' ∧ s'.port = s.port ∧
        Configured s s' p n ((if analog p n ∧ f ≠ .ad then iocon ||| 0x80#32 else iocon) ||| BitVec.ofNat 32 k)
          (if bySpi f p n then (location f p n).map (fun y => (y.1, BitVec.ofNat 32 y.2)) else none) := by
  obtain ⟨-, -, -, -, h5, -, h7⟩ := t_pin _ hp
  dsimp only at h5 h7
  have hc : f.code ≠ 0 := by cases f <;> first | exact absurd rfl hf | decide
  have had : f.code = PF_AD ↔ f = .ad := by cases f <;> decide
  have e := t_number _ hp f (mem_fns f) hf
  dsimp only at e
  have e2 := t_spi _ hp f (mem_fns f) hf
  dsimp only at e2
  unfold pinFunc
  rw [if_pos hc, e]
  cases hn : number p n f with
  | none => rfl
  | some k =>
    rw [hn] at e2
    refine ⟨_, rfl, ?_, ?_, ?_, ?_⟩
    · show (setLoc s _).port = _
      exact setLoc_port _ _
    · rw [h5]
      refine (setIocon_reg _ hp _).1.trans ?_
      congr 1
      have : (constant p n &&& PFL_ADMODE ≠ 0#32 ∧ f.code ≠ PF_AD) ↔ (analog p n = true ∧ f ≠ .ad) := by
        rw [← h7, decide_eq_true_eq]
        exact and_congr_right fun _ => not_congr had
      by_cases q : analog p n = true ∧ f ≠ .ad
      · rw [if_pos (this.2 q), if_pos q]
      · rw [if_neg (fun r => q (this.1 r)), if_neg q]
    · intro l
      rw [h5, (setIocon_reg _ hp _).2.2 l, e2 (by simp)]
      exact setLoc_place _ _ _
    · intro x hx hne
      rw [h5, (setIocon_reg _ hp _).2.1 x hx hne]
      exact setLoc_pin _ _ hx

/-! ## pinMode -/

/-- The place of the function (if several pins can have it) is selected: always for `INPUT_CAPTURE`; not for SSEL on PIO2_0, nor for DSR, DCD and RI, nor for
a capture input asked for by `PINMODE_FUNC`, nor for RXD asked for as output. -/
def selected (u : Use) (p n : Nat) : Bool :=
  match u with
  | .input f => decide (f ≠ .cap ∧ f ≠ .dsr ∧ f ≠ .dcd ∧ f ≠ .ri ∧ ¬ (f = .ssel ∧ p = 2 ∧ n = 0))
  | .output f => decide (f ≠ .cap ∧ f ≠ .dsr ∧ f ≠ .dcd ∧ f ≠ .ri ∧ ¬ (f = .ssel ∧ p = 2 ∧ n = 0) ∧ f ≠ .rxd)
  | _ => true

/-- The ports after the direction of one pin has been set. -/
structure Directed (s s' : State) (p n : Nat) (out : Bool) : Prop where
  dir : ∀ q i, i < 32 → (s'.port q).dir.getLsbD i = if q = p ∧ i = n then out else (s.port q).dir.getLsbD i
  rest : ∀ q, (s'.port q).data = (s.port q).data ∧ (s'.port q).is = (s.port q).is ∧ (s'.port q).ibe = (s.port q).ibe ∧
    (s'.port q).iev = (s.port q).iev ∧ (s'.port q).ie = (s.port q).ie

theorem mask_bit {p n : Nat} (hp : (p, n) ∈ pins) (i : Nat) : (digitalPinToBitMask (constant p n)).getLsbD i = decide (i = n) := by
  obtain ⟨-, h2, -, h4, -⟩ := t_pin _ hp
  dsimp only at h2 h4
  unfold digitalPinToBitMask
  rw [show (constant p n &&& 31#32).toNat = n from h2, BitVec.getLsbD_shiftLeft, BitVec.getLsbD_one]
  by_cases h : i = n
  · subst h; simp [show i < 32 by omega]
  · by_cases q : i < n
    · simp [q, h]
    · simp [show ¬ i - n = 0 by omega, h]

theorem directed_out (s : State) {p n : Nat} (hp : (p, n) ∈ pins) :
    Directed s (setPort s (digitalPinToPort (constant p n)) fun x => { x with dir := x.dir ||| digitalPinToBitMask (constant p n) }) p n true := by
  obtain ⟨h1, -⟩ := t_pin _ hp
  dsimp only at h1
  rw [h1]
  refine ⟨fun q i hi => ?_, fun q => ?_⟩
  · unfold setPort
    dsimp only
    by_cases hq : q = p
    · subst hq
      rw [if_pos rfl]
      dsimp only
      rw [BitVec.getLsbD_or, mask_bit hp]
      by_cases h : i = n <;> simp [h]
    · rw [if_neg hq, if_neg (fun r => hq r.1)]
  · unfold setPort
    dsimp only
    by_cases hq : q = p
    · subst hq; rw [if_pos rfl]; exact ⟨rfl, rfl, rfl, rfl, rfl⟩
    · rw [if_neg hq]; exact ⟨rfl, rfl, rfl, rfl, rfl⟩

theorem directed_in (s : State) {p n : Nat} (hp : (p, n) ∈ pins) :
    Directed s (setPort s (digitalPinToPort (constant p n)) fun x => { x with dir := x.dir &&& ~~~digitalPinToBitMask (constant p n) }) p n false := by
  obtain ⟨h1, -⟩ := t_pin _ hp
  dsimp only at h1
  rw [h1]
  refine ⟨fun q i hi => ?_, fun q => ?_⟩
  · unfold setPort
    dsimp only
    by_cases hq : q = p
    · subst hq
      rw [if_pos rfl]
      dsimp only
      rw [BitVec.getLsbD_and, BitVec.getLsbD_not, mask_bit hp]
      by_cases h : i = n <;> simp [h, hi]
    · rw [if_neg hq, if_neg (fun r => hq r.1)]
  · unfold setPort
    dsimp only
    by_cases hq : q = p
    · subst hq; rw [if_pos rfl]; exact ⟨rfl, rfl, rfl, rfl, rfl⟩
    · rw [if_neg hq]; exact ⟨rfl, rfl, rfl, rfl, rfl⟩

theorem Directed.congr {s s1 s2 : State} {p n : Nat} {o : Bool} (h : Directed s s1 p n o) (e : s2.port = s1.port) : Directed s s2 p n o :=
  ⟨by rw [e]; exact h.1, by rw [e]; exact h.2⟩

/-- **C74 (part).** `pinMode`, exactly, for each of the 42 pins, each use and all options. A pin without the function asked for stops the device.
Otherwise the pin's register has the options, the number of the function and the bit for digital use, its direction is the one asked for, no other
pin is touched in any way, and the place of the function is selected if `selected`. -/
theorem C74_pin_mode (s : State) (p n : Nat) (hp : (p, n) ∈ pins) (u : Use) (opts : U32) :
    match number p n u.wanted with
    | none => pinMode s (constant p n) (u.mode opts) = none
    | some k => ∃ s', pinMode s (constant p n) (u.mode opts) = some s' ∧ Directed s s' p n u.isOutput ∧
        Configured s s' p n
          ((if analog p n ∧ u.wanted ≠ .ad then opts &&& 0x438#32 ||| 0x80#32 else opts &&& 0x438#32) ||| BitVec.ofNat 32 k)
          (if selected u p n then (location u.wanted p n).map (fun y => (y.1, BitVec.ofNat 32 y.2)) else none) := by
  have hfunc : ∀ f : Fn, (if f.code = 0 then PF_PIO else f.code) = (if f = .none then Fn.pio else f).code := by
    intro f; cases f <;> rfl
  have hne : ∀ f : Fn, (if f = .none then Fn.pio else f) ≠ .none := by
    intro f; cases f <;> decide
  -- the part common to all uses
  have key : ∀ (f : Fn) (s1 : State) (o : Bool) (l : Option (Loc × U32)) (r : Option State), f ≠ .none → Directed s s1 p n o →
      (∀ r, reg s1 r = reg s r) →
      (number p n f ≠ none → r = pinFunc (setLoc s1 l) (constant p n) (opts &&& 0x438#32) f.code) → (number p n f = none → r = none) →
      (l ≠ none → bySpi f p n = false) →
      match number p n f with
      | none => r = none
      | some k => ∃ s', r = some s' ∧ Directed s s' p n o ∧
          Configured s s' p n ((if analog p n ∧ f ≠ .ad then opts &&& 0x438#32 ||| 0x80#32 else opts &&& 0x438#32) ||| BitVec.ofNat 32 k)
            (if bySpi f p n then (location f p n).map (fun y => (y.1, BitVec.ofNat 32 y.2)) else l) := by
    intro f s1 o l r hf hd hs hr hr0 hl
    have h := pinFunc_spec (setLoc s1 l) hp (opts &&& 0x438#32) f hf
    cases hn : number p n f with
    | none => exact hr0 hn
    | some k =>
      rw [hn] at h
      obtain ⟨s', e1, e2, c1, c2, c3⟩ := h
      refine ⟨s', (hr (by rw [hn]; simp)).trans e1, hd.congr (e2.trans (setLoc_port _ _)), c1, fun m => ?_, fun x hx hne => ?_⟩
      · rw [c2 m]
        by_cases hb : bySpi f p n = true
        · rw [if_pos hb, if_pos hb]
          have : l = none := Decidable.byContradiction fun q => by
            rw [hl q] at hb; cases hb
          subst this
          cases (location f p n) with
          | none => exact hs _
          | some y => simp only [Option.map_some, setLoc, hs]
        · rw [if_neg hb, if_neg hb]
          dsimp only
          rw [setLoc_place]
          cases l with
          | none => exact hs _
          | some y => obtain ⟨a, b⟩ := y; dsimp only; rw [hs]
      · rw [c3 x hx hne, setLoc_pin _ _ hx, hs]
  have unf : ∀ u : Use, pinMode s (constant p n) (u.mode opts) =
      if u.type = OUTPUT ∨ u.type = OUTPUT_MATCH then
        pinFunc (setPort s (digitalPinToPort (constant p n)) fun y => { y with dir := y.dir ||| digitalPinToBitMask (constant p n) })
          (constant p n) (opts &&& 0x438#32) (if u.type = OUTPUT_MATCH then PF_MAT else (if u.given = .none then Fn.pio else u.given).code)
      else
        (inputFunc (constant p n) u.type (if u.given = .none then Fn.pio else u.given).code).bind fun x =>
          pinFunc (setLoc (setPort s (digitalPinToPort (constant p n)) fun y => { y with dir := y.dir &&& ~~~digitalPinToBitMask (constant p n) }) x.2)
            (constant p n) (opts &&& 0x438#32) x.1 := by
    intro u
    unfold pinMode
    dsimp only
    rw [mode_type, mode_opts, mode_func, hfunc]
  cases u with
  | input f =>
    rw [(unf (.input f)).trans (if_neg (show ¬ (INPUT = OUTPUT ∨ INPUT = OUTPUT_MATCH) by decide))]
    dsimp only [Use.wanted, Use.isOutput]
    rw [show (Use.input f).type = INPUT from rfl, show (Use.input f).given = f from rfl]
    have hi : inputFunc (constant p n) INPUT (if f = .none then Fn.pio else f).code =
        if f = .rxd then (pinLocation (constant p n) rxPinLocation 0).map (fun i => (f.code, some (Loc.rxd, BitVec.ofNat 32 i)))
        else some ((if f = .none then Fn.pio else f).code, none) := by
      unfold inputFunc
      rw [if_neg (by decide), if_neg (by decide)]
      by_cases hx : f = .rxd
      · subst hx
        rw [if_pos (by rfl), if_pos rfl]
        cases pinLocation (constant p n) rxPinLocation 0 <;> rfl
      · rw [if_neg hx, if_neg (by cases f <;> first | exact absurd rfl hx | decide)]
    rw [hi]
    by_cases hx : f = .rxd
    · subst hx
      rw [if_pos rfl]
      obtain ⟨t1, t2⟩ := t_rxd _ hp
      dsimp only at t1 t2
      have := key .rxd _ false ((location .rxd p n).map (fun y => (y.1, BitVec.ofNat 32 y.2)))
        (((pinLocation (constant p n) rxPinLocation 0).map (fun i => (Fn.rxd.code, some (Loc.rxd, BitVec.ofNat 32 i)))).bind fun x =>
          pinFunc (setLoc (setPort s (digitalPinToPort (constant p n)) fun y => { y with dir := y.dir &&& ~~~digitalPinToBitMask (constant p n) }) x.2)
            (constant p n) (opts &&& 0x438#32) x.1) (by decide) (directed_in s hp) (fun _ => rfl)
        (fun hn => by
          rw [← t1]
          cases hpl : pinLocation (constant p n) rxPinLocation 0 with
          | none =>
            rw [hpl] at t1
            cases hl : location .rxd p n with
            | none => rw [hl] at t2; rw [Option.isSome_none] at t2; exact absurd (Option.isSome_eq_false_iff.1 t2.symm) (by simpa using hn)
            | some y => rw [hl] at t1; cases t1
          | some i => rfl)
        (fun hn => by
          rw [hn] at t2
          cases hpl : pinLocation (constant p n) rxPinLocation 0 with
          | none => rfl
          | some i =>
            rw [hpl] at t1
            cases hl : location .rxd p n with
            | none => rw [hl] at t1; cases t1
            | some y => rw [hl] at t2; cases t2)
        (fun _ => rfl)
      exact this
    · rw [if_neg hx]
      have := key (if f = .none then Fn.pio else f) _ false none _ (hne f) (directed_in s hp) (fun _ => rfl) (fun _ => rfl)
        (fun hn => by
          have h := pinFunc_spec (setPort s (digitalPinToPort (constant p n)) fun y => { y with dir := y.dir &&& ~~~digitalPinToBitMask (constant p n) })
            hp (opts &&& 0x438#32) _ (hne f)
          rw [hn] at h
          exact h) (fun q => absurd rfl q)
      have hsel : (if bySpi (if f = .none then Fn.pio else f) p n then
            (location (if f = .none then Fn.pio else f) p n).map (fun y => (y.1, BitVec.ofNat 32 y.2)) else (none : Option (Loc × U32))) =
          if selected (.input f) p n then (location (if f = .none then Fn.pio else f) p n).map (fun y => (y.1, BitVec.ofNat 32 y.2)) else none := by
        cases f <;> first | exact absurd rfl hx | (simp [bySpi, selected, location])
      rw [hsel] at this
      exact this
  | output f =>
    rw [(unf (.output f)).trans (if_pos (show OUTPUT = OUTPUT ∨ OUTPUT = OUTPUT_MATCH from Or.inl rfl))]
    dsimp only [Use.wanted, Use.isOutput]
    rw [show (if (Use.output f).type = OUTPUT_MATCH then PF_MAT else (if (Use.output f).given = Fn.none then Fn.pio else (Use.output f).given).code) = _ from if_neg (show ¬ OUTPUT = OUTPUT_MATCH by decide)]
    rw [show (Use.output f).given = f from rfl]
    have := key (if f = .none then Fn.pio else f) _ true none _ (hne f) (directed_out s hp) (fun _ => rfl) (fun _ => rfl)
      (fun hn => by
        have h := pinFunc_spec (setPort s (digitalPinToPort (constant p n)) fun y => { y with dir := y.dir ||| digitalPinToBitMask (constant p n) })
          hp (opts &&& 0x438#32) _ (hne f)
        rw [hn] at h
        exact h) (fun q => absurd rfl q)
    have hsel : (if bySpi (if f = .none then Fn.pio else f) p n then
          (location (if f = .none then Fn.pio else f) p n).map (fun y => (y.1, BitVec.ofNat 32 y.2)) else (none : Option (Loc × U32))) =
        if selected (.output f) p n then (location (if f = .none then Fn.pio else f) p n).map (fun y => (y.1, BitVec.ofNat 32 y.2)) else none := by
      cases f <;> simp [bySpi, selected, location]
    rw [hsel] at this
    exact this
  | capture f =>
    rw [(unf (.capture f)).trans (if_neg (show ¬ (INPUT_CAPTURE = OUTPUT ∨ INPUT_CAPTURE = OUTPUT_MATCH) by decide))]
    dsimp only [Use.wanted, Use.isOutput]
    rw [show (Use.capture f).type = INPUT_CAPTURE from rfl, show (Use.capture f).given = f from rfl]
    have := key .cap _ false (captureLoc (constant p n)) _ (by decide) (directed_in s hp) (fun _ => rfl) (fun _ => rfl)
      (fun hn => by
        have h := pinFunc_spec (setLoc (setPort s (digitalPinToPort (constant p n)) fun y => { y with dir := y.dir &&& ~~~digitalPinToBitMask (constant p n) })
          (captureLoc (constant p n))) hp (opts &&& 0x438#32) .cap (by decide)
        rw [hn] at h
        exact h) (fun _ => rfl)
    rw [show captureLoc (constant p n) = _ from t_capture _ hp] at this
    have e : inputFunc (constant p n) INPUT_CAPTURE (if f = .none then Fn.pio else f).code =
        some (PF_CAP, (location .cap p n).map (fun y => (y.1, BitVec.ofNat 32 y.2))) := by
      unfold inputFunc
      rw [if_pos rfl, show captureLoc (constant p n) = _ from t_capture _ hp]
    rw [e]
    exact this
  | analog f =>
    rw [(unf (.analog f)).trans (if_neg (show ¬ (INPUT_ANALOG = OUTPUT ∨ INPUT_ANALOG = OUTPUT_MATCH) by decide))]
    dsimp only [Use.wanted, Use.isOutput]
    rw [show (Use.analog f).type = INPUT_ANALOG from rfl, show (Use.analog f).given = f from rfl]
    have := key .ad _ false none _ (by decide) (directed_in s hp) (fun _ => rfl) (fun _ => rfl)
      (fun hn => by
        have h := pinFunc_spec (setPort s (digitalPinToPort (constant p n)) fun y => { y with dir := y.dir &&& ~~~digitalPinToBitMask (constant p n) })
          hp (opts &&& 0x438#32) .ad (by decide)
        rw [hn] at h
        exact h) (fun q => absurd rfl q)
    have e : inputFunc (constant p n) INPUT_ANALOG (if f = .none then Fn.pio else f).code = some (PF_AD, none) := by
      unfold inputFunc
      rw [if_neg (by decide), if_pos rfl]
    rw [e]
    have hsel : (if selected (.analog f) p n then (location .ad p n).map (fun y => (y.1, BitVec.ofNat 32 y.2)) else (none : Option (Loc × U32))) = none := by
      simp [selected, location]
    rw [hsel]
    exact this
  | matched f =>
    rw [(unf (.matched f)).trans (if_pos (show OUTPUT_MATCH = OUTPUT ∨ OUTPUT_MATCH = OUTPUT_MATCH from Or.inr rfl))]
    dsimp only [Use.wanted, Use.isOutput]
    rw [show (if (Use.matched f).type = OUTPUT_MATCH then PF_MAT else (if (Use.matched f).given = Fn.none then Fn.pio else (Use.matched f).given).code) = _ from if_pos (show OUTPUT_MATCH = OUTPUT_MATCH from rfl)]
    have := key .mat _ true none _ (by decide) (directed_out s hp) (fun _ => rfl) (fun _ => rfl)
      (fun hn => by
        have h := pinFunc_spec (setPort s (digitalPinToPort (constant p n)) fun y => { y with dir := y.dir ||| digitalPinToBitMask (constant p n) })
          hp (opts &&& 0x438#32) .mat (by decide)
        rw [hn] at h
        exact h) (fun q => absurd rfl q)
    have hsel : (if selected (.matched f) p n then (location .mat p n).map (fun y => (y.1, BitVec.ofNat 32 y.2)) else (none : Option (Loc × U32))) = none := by
      simp [selected, location]
    rw [hsel]
    exact this

/-- **C74 (part).** The function asked for is at this pin, and where the chip looks for it, if `selected`. -/
theorem C74_connected_partial (s : State) (p n : Nat) (hp : (p, n) ∈ pins) (u : Use) (opts : U32) (k : Nat) (hk : number p n u.wanted = some k)
    (hsel : selected u p n = true) :
    ∃ s', pinMode s (constant p n) (u.mode opts) = some s' ∧ reg s' (.pio p n) &&& 7#32 = BitVec.ofNat 32 k ∧
      (reg s' (.pio p n) &&& 0x438#32 = opts &&& 0x438#32) ∧
      (analog p n = true → (reg s' (.pio p n) &&& 0x80#32 = 0#32 ↔ u.wanted = .ad)) ∧
      ∀ l v, location u.wanted p n = some (l, v) → reg s' (.loc l) = BitVec.ofNat 32 v := by
  have h := C74_pin_mode s p n hp u opts
  rw [hk] at h
  obtain ⟨s', e, -, c1, c2, c3⟩ := h
  have hk4 : k < 4 := by
    have : ∀ x ∈ pins, ∀ f ∈ fns, ∀ k, number x.1 x.2 f = some k → k < 4 := by
      have t : ∀ x ∈ pins, ∀ f ∈ fns, (match number x.1 x.2 f with | some k => decide (k < 4) | none => true) = true := by decide +kernel
      intro x hx f hf k hk
      have := t x hx f hf
      rw [hk] at this
      simpa using this
    exact this _ hp _ (mem_fns _) k hk
  have tblk : ∀ k < 4, (BitVec.ofNat 32 k : U32) &&& 7#32 = BitVec.ofNat 32 k ∧ (BitVec.ofNat 32 k : U32) &&& 0x438#32 = 0#32 ∧
      (BitVec.ofNat 32 k : U32) &&& 0x80#32 = 0#32 := by decide
  obtain ⟨b1, b2, b3⟩ := tblk k hk4
  have dist : ∀ a b c : U32, (a ||| b) &&& c = a &&& c ||| b &&& c := fun a b c => by
    rw [BitVec.and_comm, BitVec.and_or_distrib_left, BitVec.and_comm c, BitVec.and_comm c]
  have o7 : (opts &&& 0x438#32) &&& 7#32 = 0#32 := by rw [BitVec.and_assoc]; exact BitVec.and_zero
  have o4 : (opts &&& 0x438#32) &&& 0x438#32 = opts &&& 0x438#32 := by rw [BitVec.and_assoc, BitVec.and_self]
  have o8 : (opts &&& 0x438#32) &&& 0x80#32 = 0#32 := by rw [BitVec.and_assoc]; exact BitVec.and_zero
  refine ⟨s', e, ?_, ?_, ?_, ?_⟩
  · rw [c1, dist, b1]
    by_cases q : analog p n = true ∧ u.wanted ≠ .ad
    · rw [if_pos q, dist, o7]
      rw [show (0x80#32 : U32) &&& 7#32 = 0#32 from rfl, BitVec.zero_or, BitVec.zero_or]
    · rw [if_neg q, o7, BitVec.zero_or]
  · rw [c1, dist, b2, BitVec.or_zero]
    by_cases q : analog p n = true ∧ u.wanted ≠ .ad
    · rw [if_pos q, dist, o4]
      rw [show (0x80#32 : U32) &&& 0x438#32 = 0#32 from rfl, BitVec.or_zero]
    · rw [if_neg q, o4]
  · intro ha
    rw [c1, dist, b3, BitVec.or_zero]
    by_cases q : u.wanted = .ad
    · rw [if_neg (fun r => r.2 q), o8]
      exact ⟨fun _ => q, fun _ => rfl⟩
    · rw [if_pos ⟨ha, q⟩, dist, o8, BitVec.zero_or]
      exact ⟨fun r => absurd r (by decide), fun r => absurd r q⟩
  · intro l v hl
    rw [c2 l, if_pos hsel, hl]
    simp

/-- **C74 (violated part).** SSEL of the second SPI is at PIO2_0 or PIO2_4. Once PIO2_4 has been configured for it, configuring PIO2_0 does not move it there: the code
writes the location register for PIO2_2, which does not have this function. (With PIO2_4 back as plain output, the function is at no pin.) -/
theorem C74_ssel_not_moved (s : State) (opts opts' : U32) :
    ∃ s1 s2, pinMode s PIO2_4 ((Use.output .ssel).mode opts) = some s1 ∧ pinMode s1 PIO2_0 ((Use.output .ssel).mode opts') = some s2 ∧
      location .ssel 2 0 = some (.ssel1, 0) ∧ reg s2 (.loc .ssel1) = 1#32 := by
  have h := C74_pin_mode s 2 4 (by decide) (.output .ssel) opts
  obtain ⟨s1, e1, -, c1⟩ := h
  have h := C74_pin_mode s1 2 0 (by decide) (.output .ssel) opts'
  obtain ⟨s2, e2, -, c2⟩ := h
  refine ⟨s1, s2, e1, e2, rfl, ?_⟩
  have a := c1.place .ssel1
  have b := c2.place .ssel1
  exact b.trans a

/-! ## Direction, values, interrupts -/

/-- **C74 (part).** `pinDirection` sets the direction of this pin; nothing else changes. -/
theorem C74_direction (s : State) (p n : Nat) (hp : (p, n) ∈ pins) (dir : U32) :
    Directed s (pinDirection s (constant p n) dir) p n (decide (dir = OUTPUT)) ∧ (pinDirection s (constant p n) dir).iocon = s.iocon := by
  refine ⟨?_, rfl⟩
  unfold pinDirection
  by_cases h : dir = OUTPUT
  · simp only [h, if_true, decide_true]
    exact directed_out s hp
  · simp only [h, if_false, decide_false]
    exact directed_in s hp

theorem port_same (s : State) {p n : Nat} (hp : (p, n) ∈ pins) (f : Port → Port) :
    (setPort s (digitalPinToPort (constant p n)) f).port p = f (s.port p) ∧
    ∀ q, q ≠ p → (setPort s (digitalPinToPort (constant p n)) f).port q = s.port q := by
  obtain ⟨h1, -⟩ := t_pin _ hp
  dsimp only at h1
  rw [h1]
  exact ⟨if_pos rfl, fun q hq => if_neg hq⟩

theorem read_bit (s : State) {p n : Nat} (hp : (p, n) ∈ pins) : digitalRead s (constant p n) = (s.port p).data.getLsbD n := by
  obtain ⟨h1, -, -, h4, -⟩ := t_pin _ hp
  dsimp only at h1 h4
  unfold digitalRead
  rw [h1]
  cases h : (s.port p).data.getLsbD n with
  | true =>
    rw [decide_eq_true_eq]
    intro q
    have := congrArg (fun b : U32 => b.getLsbD n) q
    simp only [BitVec.getLsbD_and, h, mask_bit hp] at this
    simp at this
  | false =>
    rw [decide_eq_false_iff_not, Decidable.not_not]
    apply BitVec.eq_of_getLsbD_eq
    intro i hi
    rw [BitVec.getLsbD_and, mask_bit hp, BitVec.getLsbD_zero]
    by_cases q : i = n
    · subst q; rw [h]; rfl
    · simp [q]

/-- **C74 (part).** A value written to a pin is the value of that pin; all other pins keep theirs, and no configuration changes. -/
theorem C74_write_read (s : State) (p n : Nat) (hp : (p, n) ∈ pins) (v : Bool) :
    digitalRead (digitalWrite s (constant p n) v) (constant p n) = v ∧
    (∀ x ∈ pins, x ≠ (p, n) → digitalRead (digitalWrite s (constant p n) v) (constant x.1 x.2) = digitalRead s (constant x.1 x.2)) ∧
    (digitalWrite s (constant p n) v).iocon = s.iocon ∧
    ∀ q, ((digitalWrite s (constant p n) v).port q).dir = (s.port q).dir ∧ ((digitalWrite s (constant p n) v).port q).ie = (s.port q).ie := by
  obtain ⟨-, -, -, h4, -⟩ := t_pin _ hp
  dsimp only at h4
  obtain ⟨hs, ho⟩ := port_same s hp fun x => { x with data := x.data &&& ~~~digitalPinToBitMask (constant p n) |||
    ((if v then digitalPinToBitMask (constant p n) else 0#32) &&& digitalPinToBitMask (constant p n)) }
  have hbit : ∀ i < 32, ((digitalWrite s (constant p n) v).port p).data.getLsbD i = if i = n then v else (s.port p).data.getLsbD i := by
    intro i hi
    refine (congrArg (fun x : Port => x.data.getLsbD i) hs).trans ?_
    dsimp only
    rw [BitVec.getLsbD_or, BitVec.getLsbD_and, BitVec.getLsbD_not, BitVec.getLsbD_and, mask_bit hp]
    by_cases h : i = n
    · subst h
      cases v
      · simp
      · simp [mask_bit hp]
    · simp [h, hi]
  refine ⟨?_, fun x hx hne => ?_, rfl, fun q => ?_⟩
  · rw [read_bit _ hp, hbit n (by omega), if_pos rfl]
  · rw [read_bit _ hx, read_bit _ hx]
    obtain ⟨-, -, -, g4, -⟩ := t_pin _ hx
    by_cases h : x.1 = p
    · rw [h, hbit _ (by omega), if_neg]
      intro q
      exact hne (Prod.ext h q)
    · exact congrArg (fun y : Port => y.data.getLsbD x.2) (ho x.1 h)
  · by_cases h : q = p
    · subst h
      exact ⟨(congrArg Port.dir hs).trans rfl, (congrArg Port.ie hs).trans rfl⟩
    · exact ⟨congrArg Port.dir (ho q h), congrArg Port.ie (ho q h)⟩

theorem setOrClear_bit {p n : Nat} (hp : (p, n) ∈ pins) (c : Prop) [Decidable c] (v : U32) (i : Nat) (hi : i < 32) :
    (setOrClear c v (digitalPinToBitMask (constant p n))).getLsbD i = if i = n then decide c else v.getLsbD i := by
  unfold setOrClear
  by_cases hc : c
  · rw [if_pos hc, BitVec.getLsbD_or, mask_bit hp]
    by_cases h : i = n <;> simp [h, hc]
  · rw [if_neg hc, BitVec.getLsbD_and, BitVec.getLsbD_not, mask_bit hp]
    by_cases h : i = n <;> simp [h, hc, hi]

/-- When a pin interrupts. -/
inductive Spec.Trigger where
  | low | high | falling | rising | both

/-- The constant of the interface. -/
def Spec.Trigger.code : Trigger → U32
  | .low => 0x100#32 | .high => 0x101#32 | .falling => 0#32 | .rising => 1#32 | .both => 0x10#32

/-- The meaning of the bits IS, IBE and IEV of a pin (LPC11xx manual): level or edges; both edges; high or rising. -/
def Spec.trigger (is ibe iev : Bool) : Trigger :=
  if is then (if iev then .high else .low) else if ibe then .both else if iev then .rising else .falling

/-- **C74 (part).** `pinInterruptMode`: the pin becomes an input and interrupts when asked to, enabled if asked for; the interrupts of all other
pins are unchanged. Options set before, such as a pull-up, are lost. -/
theorem C74_interrupt (s : State) (p n : Nat) (hp : (p, n) ∈ pins) (t : Trigger) (enabled : Bool) :
    ∃ s', pinInterruptMode s (constant p n) (t.code ||| if enabled then 0x1000#32 else 0#32) = some s' ∧
      trigger ((s'.port p).is.getLsbD n) ((s'.port p).ibe.getLsbD n) ((s'.port p).iev.getLsbD n) = t ∧
      (s'.port p).ie.getLsbD n = enabled ∧
      (s'.port p).dir.getLsbD n = false ∧ reg s' (.pio p n) &&& 0x438#32 = 0#32 ∧
      ∀ q i, i < 32 → (q, i) ≠ (p, n) →
        (s'.port q).is.getLsbD i = (s.port q).is.getLsbD i ∧ (s'.port q).ibe.getLsbD i = (s.port q).ibe.getLsbD i ∧
        (s'.port q).iev.getLsbD i = (s.port q).iev.getLsbD i ∧ (s'.port q).ie.getLsbD i = (s.port q).ie.getLsbD i ∧
        (s'.port q).dir.getLsbD i = (s.port q).dir.getLsbD i := by
  have hpio : ∀ x ∈ pins, (number x.1 x.2 .pio).isSome = true := by decide +kernel
  obtain ⟨k, hk⟩ := Option.isSome_iff_exists.1 (hpio _ hp)
  have hm : (Use.input .none).mode 0#32 = INPUT := by decide
  obtain ⟨s1, e1, -, c1, -, -⟩ := C74_connected_partial s p n hp (.input .none) 0#32 k hk (by simp [selected])
  have h := C74_pin_mode s p n hp (.input .none) 0#32
  rw [show number p n (Use.input .none).wanted = some k from hk] at h
  obtain ⟨s2, e2, d2, -⟩ := h
  rw [e1] at e2
  cases e2
  rw [hm] at e1
  obtain ⟨-, -, -, h4, -⟩ := t_pin _ hp
  dsimp only at h4
  obtain ⟨m, hmm⟩ : ∃ m : U32, m = t.code ||| if enabled then 0x1000#32 else 0#32 := ⟨_, rfl⟩
  rw [← hmm]
  obtain ⟨hs, ho⟩ := port_same s1 hp fun x =>
      { x with
        is := setOrClear (m &&& 0x100#32 ≠ 0#32) x.is (digitalPinToBitMask (constant p n))
        ibe := setOrClear (m &&& 0x10#32 ≠ 0#32) x.ibe (digitalPinToBitMask (constant p n))
        iev := setOrClear (m &&& 1#32 ≠ 0#32) x.iev (digitalPinToBitMask (constant p n))
        ie := setOrClear (m &&& 0x1000#32 ≠ 0#32) x.ie (digitalPinToBitMask (constant p n)) }
  refine ⟨_, by unfold pinInterruptMode; rw [e1]; rfl, ?_, ?_, ?_, ?_, ?_⟩
  · rw [hs]
    dsimp only
    rw [setOrClear_bit hp _ _ _ (by omega), setOrClear_bit hp _ _ _ (by omega), setOrClear_bit hp _ _ _ (by omega), if_pos rfl, if_pos rfl, if_pos rfl, hmm]
    cases t <;> cases enabled <;> rfl
  · rw [hs]
    dsimp only
    rw [setOrClear_bit hp _ _ _ (by omega), if_pos rfl, hmm]
    cases t <;> cases enabled <;> rfl
  · rw [hs]
    dsimp only
    have := d2.dir p n (by omega)
    rw [if_pos ⟨rfl, rfl⟩] at this
    exact this
  · exact c1
  · intro q i hi hne
    have hd := d2.dir q i hi
    rw [if_neg (fun r => hne (Prod.ext r.1 r.2))] at hd
    obtain ⟨r1, r2, r3, r4, r5⟩ := d2.rest q
    by_cases h : q = p
    · subst h
      have hin : i ≠ n := fun r => hne (by rw [r])
      rw [hs]
      dsimp only
      rw [setOrClear_bit hp _ _ _ hi, setOrClear_bit hp _ _ _ hi, setOrClear_bit hp _ _ _ hi, setOrClear_bit hp _ _ _ hi, if_neg hin, if_neg hin, if_neg hin,
        if_neg hin, r2, r3, r4, r5]
      exact ⟨rfl, rfl, rfl, rfl, hd⟩
    · rw [ho q h, r2, r3, r4, r5]
      exact ⟨rfl, rfl, rfl, rfl, hd⟩

/-- **C74 (part).** Enabling and disabling the interrupt of one pin leaves the others as they are. -/
theorem C74_interrupt_enable (s : State) (p n : Nat) (hp : (p, n) ∈ pins) (q i : Nat) (hi : i < 32) :
    ((pinEnableInterrupt s (constant p n)).port q).ie.getLsbD i = (if q = p ∧ i = n then true else (s.port q).ie.getLsbD i) ∧
    ((pinDisableInterrupt s (constant p n)).port q).ie.getLsbD i = (if q = p ∧ i = n then false else (s.port q).ie.getLsbD i) := by
  obtain ⟨hs, ho⟩ := port_same s hp fun x => { x with ie := x.ie ||| digitalPinToBitMask (constant p n) }
  obtain ⟨hs', ho'⟩ := port_same s hp fun x => { x with ie := x.ie &&& ~~~digitalPinToBitMask (constant p n) }
  unfold pinEnableInterrupt pinDisableInterrupt
  by_cases h : q = p
  · subst h
    rw [hs, hs']
    dsimp only
    rw [BitVec.getLsbD_or, BitVec.getLsbD_and, BitVec.getLsbD_not, mask_bit hp]
    by_cases g : i = n <;> simp [g, hi]
  · rw [ho q h, ho' q h, if_neg (fun r => h r.1), if_neg (fun r => h r.1)]
    exact ⟨rfl, rfl⟩

/-! ## portMode -/

theorem portLoop_port (portNum : Nat) (iocon : U32) : ∀ n k mask s, (portLoop portNum iocon n k mask s).port = s.port := by
  intro n
  induction n with
  | zero => intro k mask s; rfl
  | succ n ih =>
    intro k mask s
    rw [portLoop]
    by_cases h : mask = 0
    · rw [if_pos h]
    · rw [if_neg h, ih]
      by_cases g : mask % 2 = 1
      · rw [if_pos g]; rfl
      · rw [if_neg g]

/-- The words written by the loop. -/
theorem portLoop_iocon (portNum : Nat) (iocon : U32) : ∀ n k mask s o, (portLoop portNum iocon n k mask s).iocon o =
    if ∃ j, j < n ∧ mask.testBit j = true ∧ ioconPointer2 portNum (k + j) = o then iocon else s.iocon o := by
  intro n
  induction n with
  | zero => intro k mask s o; rw [if_neg (by rintro ⟨j, h, -⟩; omega)]; rfl
  | succ n ih =>
    intro k mask s o
    rw [portLoop]
    by_cases h : mask = 0
    · subst h
      rw [if_pos rfl, if_neg (by rintro ⟨j, -, h, -⟩; rw [Nat.zero_testBit] at h; cases h)]
    · rw [if_neg h, ih]
      have hb : ∀ j, (mask / 2).testBit j = mask.testBit (j + 1) := fun j => (Nat.testBit_succ mask j).symm
      have h0 : mask.testBit 0 = true ↔ mask % 2 = 1 := by rw [Nat.testBit_zero, decide_eq_true_eq]
      by_cases c : ∃ j, j < n ∧ (mask / 2).testBit j = true ∧ ioconPointer2 portNum (k + 1 + j) = o
      · rw [if_pos c]
        obtain ⟨j, c1, c2, c3⟩ := c
        rw [if_pos ⟨j + 1, by omega, by rw [← hb]; exact c2, by rw [show k + (j + 1) = k + 1 + j by omega]; exact c3⟩]
      · rw [if_neg c]
        by_cases g : mask % 2 = 1
        · rw [if_pos g]
          show (if o = ioconPointer2 portNum k then iocon else s.iocon o) = _
          by_cases e : o = ioconPointer2 portNum k
          · rw [if_pos e, if_pos ⟨0, by omega, h0.2 g, e.symm⟩]
          · rw [if_neg e, if_neg]
            rintro ⟨j, q1, q2, q3⟩
            rcases j with _ | j
            · exact e q3.symm
            · exact c ⟨j, by omega, by rw [hb]; exact q2, by rw [show k + 1 + j = k + (j + 1) by omega]; exact q3⟩
        · rw [if_neg g, if_neg]
          rintro ⟨j, q1, q2, q3⟩
          rcases j with _ | j
          · exact g (h0.1 q2)
          · exact c ⟨j, by omega, by rw [hb]; exact q2, by rw [show k + 1 + j = k + (j + 1) by omega]; exact q3⟩

/-- **C74 (part).** `portMode` of pins that exist: the pins in the mask get the direction and the options asked for; all other pins keep both. -/
theorem C74_port_mode_partial (s : State) (p : Nat) (hp : p < 4) (mask : Nat) (hm : ∀ j, mask.testBit j = true → (p, j) ∈ pins) (out : Bool) (opts : U32) :
    let s' := portMode s p mask ((if out then OUTPUT else INPUT) ||| opts &&& 0x438#32)
    (∀ x ∈ pins, reg s' (.pio x.1 x.2) = if x.1 = p ∧ mask.testBit x.2 = true then opts &&& 0x438#32 else reg s (.pio x.1 x.2)) ∧
    (∀ x ∈ pins, (s'.port x.1).dir.getLsbD x.2 = if x.1 = p ∧ mask.testBit x.2 = true then out else (s.port x.1).dir.getLsbD x.2) ∧
    ∀ l, reg s' (.loc l) = reg s (.loc l) := by
  have hmode : (if out then OUTPUT else INPUT) ||| opts &&& 0x438#32 = (if out then Use.output .none else Use.input .none).mode opts := by
    unfold Use.mode
    cases out <;> exact (BitVec.or_zero).symm
  have hty : (((if out then OUTPUT else INPUT) ||| opts &&& 0x438#32) &&& 0xf000#32 : U32) = if out then OUTPUT else INPUT := by
    rw [hmode, mode_type]; cases out <;> rfl
  have hop : (((if out then OUTPUT else INPUT) ||| opts &&& 0x438#32) &&& 0xfff#32 : U32) = opts &&& 0x438#32 := by
    rw [hmode, mode_opts]
  have hb : ∀ i, i < 32 → (BitVec.ofNat 32 mask : U32).getLsbD i = mask.testBit i := by
    intro i hi
    rw [BitVec.getLsbD_ofNat]; simp [hi]
  dsimp only
  unfold portMode
  dsimp only
  rw [hty, hop]
  have h12 : ∀ j, mask.testBit j = true → j < 12 := fun j hj => (t_pin _ (hm j hj)).2.2.2.1
  have hptr : ∀ j, mask.testBit j = true → ioconPointer2 p (0 + j) = offsetOf (.pio p j) := fun j hj => by
    rw [Nat.zero_add]; exact (t_pin _ (hm j hj)).2.2.2.2.2.1
  obtain ⟨s1, hs1⟩ : ∃ s1, s1 = (if (if out then OUTPUT else INPUT) = OUTPUT ∨ (if out then OUTPUT else INPUT) = OUTPUT_MATCH then
      setPort s p fun q => { q with dir := q.dir ||| BitVec.ofNat 32 mask } else setPort s p fun q => { q with dir := q.dir &&& ~~~BitVec.ofNat 32 mask }) := ⟨_, rfl⟩
  rw [← hs1]
  have hreg : s1.iocon = s.iocon := by rw [hs1]; cases out <;> rfl
  refine ⟨fun x hx => ?_, fun x hx => ?_, fun l => ?_⟩
  · show (portLoop _ _ _ _ _ _).iocon _ = _
    rw [portLoop_iocon]
    by_cases c : x.1 = p ∧ mask.testBit x.2 = true
    · rw [if_pos c, if_pos ⟨x.2, h12 _ c.2, c.2, by rw [hptr _ c.2, c.1]⟩]
    · rw [if_neg c, if_neg, hreg]
      · rfl
      · rintro ⟨j, -, q2, q3⟩
        rw [hptr j q2] at q3
        have := t_offset _ (hm j q2) _ hx q3
        subst this
        exact c ⟨rfl, q2⟩
  · rw [portLoop_port]
    obtain ⟨-, -, -, g4, -⟩ := t_pin _ hx
    by_cases h : x.1 = p
    · rw [h, hs1]
      cases out
      · rw [if_neg (by decide)]
        show ((if p = p then _ else s.port p) : Port).dir.getLsbD _ = _
        rw [if_pos rfl]
        dsimp only
        rw [BitVec.getLsbD_and, BitVec.getLsbD_not, hb _ (by omega)]
        by_cases g : mask.testBit x.2 = true
        · simp [g]
        · simp [g, show x.2 < 32 by omega]
      · rw [if_pos (by decide)]
        show ((if p = p then _ else s.port p) : Port).dir.getLsbD _ = _
        rw [if_pos rfl]
        dsimp only
        rw [BitVec.getLsbD_or, hb _ (by omega)]
        by_cases g : mask.testBit x.2 = true
        · simp [g]
        · simp [g]
    · rw [if_neg (fun r => h r.1), hs1]
      cases out
      · rw [if_neg (by decide)]
        show ((if x.1 = p then _ else s.port x.1) : Port).dir.getLsbD _ = _
        rw [if_neg h]
      · rw [if_pos (by decide)]
        show ((if x.1 = p then _ else s.port x.1) : Port).dir.getLsbD _ = _
        rw [if_neg h]
  · show (portLoop _ _ _ _ _ _).iocon _ = _
    rw [portLoop_iocon, if_neg, hreg]
    · rfl
    · rintro ⟨j, -, q2, q3⟩
      rw [hptr j q2] at q3
      exact t_offset_loc _ (hm j q2) l (mem_locs l) q3

/-- **C74 (violated part).** `portMode` writes function number 0 and no bit for digital use, whatever the pin: it makes a pin general purpose only if that is its function 0 and
the pin has no analog input. It is not for these ten pins: on PIO0_0 it selects the reset input, on PIO0_10 and PIO1_3 the debugger's pins. -/
theorem C74_port_mode_function (s : State) (p n : Nat) (hp : (p, n) ∈ pins) (out : Bool) (opts : U32) :
    let r := reg (portMode s p (2 ^ n) ((if out then OUTPUT else INPUT) ||| opts &&& 0x438#32)) (.pio p n)
    r &&& 7#32 = 0#32 ∧ r &&& 0x80#32 = 0#32 ∧
    (((functions p n)[0]? = some .pio ∧ analog p n = false) ↔
      (p, n) ∉ [(0, 0), (0, 10), (0, 11), (1, 0), (1, 1), (1, 2), (1, 3), (1, 4), (1, 10), (1, 11)]) := by
  have h := (C74_port_mode_partial s p (t_pin _ hp).2.2.1 (2 ^ n) (fun j hj => by
    rw [Nat.testBit_two_pow, decide_eq_true_eq] at hj
    rw [← hj]; exact hp) out opts).1 (p, n) hp
  dsimp only at h ⊢
  have hc : p = p ∧ (2 ^ n).testBit n = true := ⟨rfl, by rw [Nat.testBit_two_pow]; simp⟩
  rw [if_pos hc] at h
  rw [h]
  refine ⟨by rw [BitVec.and_assoc]; exact BitVec.and_zero, by rw [BitVec.and_assoc]; exact BitVec.and_zero, ?_⟩
  have : ∀ x ∈ pins, (((functions x.1 x.2)[0]? = some .pio ∧ analog x.1 x.2 = false) ↔
      x ∉ [(0, 0), (0, 10), (0, 11), (1, 0), (1, 1), (1, 2), (1, 3), (1, 4), (1, 10), (1, 11)]) := by decide +kernel
  exact this _ hp

/-- **C74 (violated part).** Port 3 has six pins. If the mask has one of the bits 6 to 11 (as in 0xfff, "all pins"), `portMode` overwrites the configuration of
PIO2_6. -/
theorem C74_port3_overwrites (s : State) (mask : Nat) (j : Nat) (h6 : 6 ≤ j) (h12 : j < 12) (hj : mask.testBit j = true) (mode : U32) :
    reg (portMode s 3 mask mode) (.pio 2 6) = mode &&& 0xfff#32 := by
  unfold portMode
  dsimp only
  show (portLoop _ _ _ _ _ _).iocon _ = _
  have : ∀ j < 12, 6 ≤ j → ioconPointer2 3 (0 + j) = offsetOf (.pio 2 6) := by decide
  rw [portLoop_iocon, if_pos ⟨j, h12, hj, this j h12 h6⟩]

/-- **C74 (part).** The registers the other theorems speak of are those at the addresses of the manual: `reg s r` is the word at that address. Each of the 42
pins and each of the 11 locations has one, and no two have the same. -/
theorem C74_addresses :
    (∀ x ∈ pins, (address (.pio x.1 x.2)).isSome) ∧ (∀ l, (address (.loc l)).isSome) ∧
    (∀ s r a, address r = some a → reg s r = s.iocon (a / 4) ∧ a % 4 = 0) ∧
    (∀ r r' a, address r = some a → address r' = some a → r = r') := by
  have ht : ∀ r a, address r = some a → (r, a) ∈ layout.mapIdx (fun i r => (r, 4 * i)) ∧ offsetOf r = a / 4 ∧ a % 4 = 0 := by
    intro r a h
    unfold address at h
    split at h <;> first | (injection h with h; subst h; decide) | cases h
  refine ⟨by decide +kernel, fun l => by cases l <;> rfl, fun s r a h => ?_, fun r r' a h h' => ?_⟩
  · obtain ⟨-, h1, h2⟩ := ht r a h
    exact ⟨congrArg s.iocon h1, h2⟩
  · have hu : ∀ x ∈ layout.mapIdx (fun i r => (r, 4 * i)), ∀ y ∈ layout.mapIdx (fun i r => (r, 4 * i)), x.2 = y.2 → x.1 = y.1 := by decide +kernel
    exact hu _ (ht r a h).1 _ (ht r' a h').1 rfl

/-- **C74 (part).** `portDirection`: the pins of the mask get the direction, all other pins of the port and the other ports keep theirs, and nothing else changes. -/
theorem C74_port_direction (s : State) (q : Nat) (mask : U32) (out : Bool) :
    let s' := portDirection s q mask (if out then OUTPUT else INPUT)
    (∀ p i, i < 32 → (s'.port p).dir.getLsbD i = if p = q ∧ mask.getLsbD i = true then out else (s.port p).dir.getLsbD i) ∧
    (∀ p, (s'.port p).data = (s.port p).data ∧ (s'.port p).is = (s.port p).is ∧ (s'.port p).ibe = (s.port p).ibe ∧
      (s'.port p).iev = (s.port p).iev ∧ (s'.port p).ie = (s.port p).ie) ∧
    s'.iocon = s.iocon := by
  dsimp only
  unfold portDirection setPort
  refine ⟨fun p i hi => ?_, fun p => ?_, rfl⟩
  · dsimp only
    by_cases hp : p = q
    · subst hp
      rw [if_pos rfl]
      cases out
      · rw [if_neg (by decide : ¬(false = true)), if_neg (by decide : ¬(INPUT = OUTPUT))]
        dsimp only
        rw [BitVec.getLsbD_and, BitVec.getLsbD_not]
        cases mask.getLsbD i <;> cases (s.port p).dir.getLsbD i <;> simp [hi]
      · rw [if_pos rfl, if_pos rfl]
        dsimp only
        rw [BitVec.getLsbD_or]
        cases mask.getLsbD i <;> cases (s.port p).dir.getLsbD i <;> simp
    · rw [if_neg hp, if_neg (fun h => hp h.1)]
  · dsimp only
    by_cases hp : p = q
    · subst hp; rw [if_pos rfl]; exact ⟨rfl, rfl, rfl, rfl, rfl⟩
    · rw [if_neg hp]; exact ⟨rfl, rfl, rfl, rfl, rfl⟩

/-! ## Cases -/

/-- All registers 0. -/
def zero : State := ⟨fun _ => ⟨0, 0, 0, 0, 0, 0⟩, fun _ => 0⟩

/-- `pinMode(PIO2_7, SERIAL_RXD | PULL_UP)`: function 2, pull-up, and RXD is looked for at PIO2_7. -/
example : (pinMode zero PIO2_7 ((Use.input .rxd).mode 0x10#32)).map (fun s => (reg s (.pio 2 7), reg s (.loc .rxd), reg s (.pio 2 6))) =
    some (0x12#32, 1#32, 0#32) := by decide

/-- An analog input; and a pin that is none stops the device. -/
example : (pinMode zero PIO1_0 ((Use.analog .none).mode 0#32)).map (fun s => reg s (.pio 1 0)) = some 2#32 ∧
    (pinMode zero PIO2_0 ((Use.analog .none).mode 0#32)).isNone = true := by decide

example : selected (.input .rxd) 2 7 = true ∧ number 2 7 .rxd = some 2 := by decide

/-- `portMode(PIO1, 1, OUTPUT)` does not give what `pinMode(PIO1_0, OUTPUT)` gives. -/
example : reg (portMode zero 1 1 OUTPUT) (.pio 1 0) = 0#32 ∧ (pinMode zero PIO1_0 OUTPUT).map (fun s => reg s (.pio 1 0)) = some 0x81#32 := by decide

end Verif.Pin
