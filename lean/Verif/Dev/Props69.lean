import Verif.Dev.Begin
import Verif.Dev.Props68

/-!
# C69 — how a device starts

After power-on the device has the configuration that was saved: every byte of the EEPROM except those the
program sets itself, the saved individual address, no programming mode, no connection. With C68: what was saved
before a power failure is there after it.
-/

namespace Verif.Dev

open Verif.Knx

/-! ## Vocabulary -/

/-- The bytes of the EEPROM which `begin` writes: manufacturer, device type, version, run error, port A (all
types); application type, serial number, library version and the address of a fixed communication object
table (types with load states). -/
def AtStart (k : Kind) (s : Setup) (i : Nat) : Prop :=
  (0x03 ≤ i ∧ i ≤ 0x07) ∨ i = 0x0c ∨ i = 0x0d ∨
  (k ≠ .bcu1 ∧ (i = 0x15 ∨ (0x38a ≤ i ∧ i < 0x390) ∨ i = 0x3a2 ∨ i = 0x3a3 ∨
    (s.comTab ≠ 0#16 ∧ (i = 0x37c ∨ i = 0x37d))))

/-- The individual address in an image of the EEPROM. -/
def savedAddress (f : Nat → Byte) : Word := makeWord (f 0x17) (f 0x18)

/-- The image of a device whose address table is being loaded. -/
def Loading (k : Kind) (f : Nat → Byte) : Prop := k ≠ .bcu1 ∧ f 0x371 = 2#8

/-- The address table, as the image describes it, is being loaded and begins at offset `o` of this array. -/
def TableAt (k : Kind) (f : Nat → Byte) (ar : Area) (o : Nat) : Prop :=
  Loading k f ∧ userMemoryPtr k (wordAt f (addrTabAddrOff k)).toNat = some (ar, o)

/-- The device's own entry (bytes 1 and 2) in an address table that is being loaded. -/
def TableEntry (k : Kind) (f : Nat → Byte) (i : Nat) : Prop := ∃ o, TableAt k f .ee o ∧ (i = o + 1 ∨ i = o + 2)

/-- If the address table is being loaded, it lies in the memory, and its first entry not over the bytes which the
system uses itself (but it may be the place of the individual address, 0x117, as in the tables of a `BCU2`). -/
def Clear (k : Kind) (s : Setup) (f : Nat → Byte) : Prop :=
  Loading k f → ∃ ar o, TableAt k f ar o ∧ inArray (areaSize k ar) (o + 1 : Nat) 2 = true ∧
    (ar = .ee → ∀ i, i = o + 1 ∨ i = o + 2 → ¬ AtStart k s i ∧ i ≠ 0x371 ∧ i ≠ addrTabAddrOff k ∧
      i ≠ addrTabAddrOff k + 1 ∧ (o = 0x16 ∨ i ≠ 0x17 ∧ i ≠ 0x18) ∧ i ≠ 0x372 ∧ i ≠ 0x373) ∧
    (ar ≠ .ee → ∀ i, i = o + 1 ∨ i = o + 2 → i ≠ 0x62 ∧ i ≠ 0x63)

/-! ## Frames -/

section
variable {W : World} {s : Setup} {f : Nat → Byte}

theorem addrTabAddrOff_cases (k : Kind) : addrTabAddrOff k = 0x21 ∨ addrTabAddrOff k = 0x378 := by
  cases k <;> decide

/-- As `f`, except where `begin` may write. -/
structure Stage (W : World) (s : Setup) (f : Nat → Byte) (A : Word) (d : Dev) : Prop where
  like : ∀ i, ¬ AtStart W.kind s i → ¬ TableEntry W.kind f i → i ≠ 0x17 → i ≠ 0x18 → d.ee i = f i
  high : d.ee 0x17 = highByte A
  low : d.ee 0x18 = lowByte A
  own : d.ownAddr = A
  entry : ∀ ar o, TableAt W.kind f ar o →
    (if ar = .ee then d.ee else d.ram) (o + 1) = highByte A ∧ (if ar = .ee then d.ee else d.ram) (o + 2) = lowByte A

theorem notEntry {i : Nat} (hc : Clear W.kind s f) (h : i = 0x371 ∨ i = addrTabAddrOff W.kind ∨
    i = addrTabAddrOff W.kind + 1 ∨ i = 0x372 ∨ i = 0x373 ∨ AtStart W.kind s i) :
    ¬ TableEntry W.kind f i := by
  rintro ⟨o, ht, hi⟩
  obtain ⟨ar, o', ht', -, h1, -⟩ := hc ht.1
  have e : (Area.ee, o) = (ar, o') := Option.some.inj (ht.2.symm.trans ht'.2)
  cases e
  obtain ⟨a1, a2, a3, a4, -, a7, a8⟩ := h1 rfl i hi
  rcases h with h | h | h | h | h | h
  · exact a2 h
  · exact a3 h
  · exact a4 h
  · exact a7 h
  · exact a8 h
  · exact a1 h

theorem notAtStart (k : Kind) (s : Setup) {i : Nat} (h : i = 0x371 ∨ i = 0x372 ∨ i = 0x373 ∨ i = addrTabAddrOff k ∨
    i = addrTabAddrOff k + 1 ∨ i = 0x17 ∨ i = 0x18) : ¬ AtStart k s i := by
  have := addrTabAddrOff_cases k
  unfold AtStart
  rintro (h1 | h1 | h1 | ⟨-, h1 | h1 | h1 | h1 | ⟨-, h1⟩⟩) <;> omega

/-- The parts of the image that decide where the address table is. -/
theorem same_table {e : Nat → Byte} (hc : Clear W.kind s f)
    (hl : ∀ i, ¬ AtStart W.kind s i → ¬ TableEntry W.kind f i → i ≠ 0x17 → i ≠ 0x18 → e i = f i) :
    e 0x371 = f 0x371 ∧ wordAt e (addrTabAddrOff W.kind) = wordAt f (addrTabAddrOff W.kind) := by
  have h := addrTabAddrOff_cases W.kind
  refine ⟨hl _ (notAtStart _ _ (by simp)) (notEntry hc (by simp)) (by decide) (by decide), ?_⟩
  unfold wordAt
  rw [hl _ (notAtStart _ _ (by simp)) (notEntry hc (by simp)) (by omega) (by omega),
    hl (addrTabAddrOff W.kind) (notAtStart _ _ (by simp)) (notEntry hc (by simp)) (by omega) (by omega)]

/-- Everything `setOwnAddress` leaves alone. -/
structure SameRest (d d' : Dev) : Prop where
  status : d'.status = d.status
  runState : d'.runState = d.runState
  enabled : d'.enabled = d.enabled
  mapper : d'.mapper = d.mapper
  restart : d'.restart = d.restart
  comTab : d'.comTabStatic = d.comTabStatic

theorem default_ee (d : Dev) (a : Word) (i : Nat) : (setOwnAddressDefault d a).ee i =
    if i = 0x17 then highByte a else if i = 0x18 then lowByte a else d.ee i := by
  unfold setOwnAddressDefault
  dsimp only
  split
  · dsimp only [upd]
    split
    · rename_i h; rw [if_neg (by omega)]
    · rename_i h1
      split
      · rfl
      · rfl
  · rename_i h
    have h : a = makeWord (d.ee 0x17) (d.ee 0x18) := by simpa using h
    split
    · rename_i hi; rw [h, highByte_makeWord, hi]
    · split
      · rename_i hi; rw [h, lowByte_makeWord, hi]
      · rfl

theorem own_notLoading (d : Dev) (a : Word) (h : ¬ Loading W.kind d.ee) :
    setOwnAddress W d a = setOwnAddressDefault d a := by
  unfold setOwnAddress
  dsimp only
  rw [if_neg]
  rintro ⟨h1, h2⟩
  refine h ⟨h1, ?_⟩
  rw [default_ee] at h2
  exact h2

theorem own_table (d : Dev) (a : Word) (ar : Area) (o : Nat) (h : TableAt W.kind d.ee ar o)
    (hin : inArray (areaSize W.kind ar) (o + 1 : Nat) 2 = true) :
    setOwnAddress W d a = if ar = .ee then
        { setOwnAddressDefault d a with
          ee := upd (upd (setOwnAddressDefault d a).ee (o + 1) (highByte a)) (o + 2) (lowByte a), eeModified := true }
      else
        { setOwnAddressDefault d a with
          ram := upd (upd (setOwnAddressDefault d a).ram (o + 1) (highByte a)) (o + 2) (lowByte a), eeModified := true } := by
  have hp := addrTabAddrOff_cases W.kind
  have e : wordAt (setOwnAddressDefault d a).ee (addrTabAddrOff W.kind) = wordAt d.ee (addrTabAddrOff W.kind) := by
    unfold wordAt
    rw [default_ee, default_ee, if_neg (by omega), if_neg (by omega), if_neg (by omega), if_neg (by omega)]
  unfold setOwnAddress
  dsimp only
  rw [if_pos ⟨h.1.1, by rw [default_ee]; exact h.1.2⟩, e, h.2]
  dsimp only
  rw [if_pos hin]

theorem default_rest (d : Dev) (a : Word) : SameRest d (setOwnAddressDefault d a) ∧
    (setOwnAddressDefault d a).ram = d.ram ∧ (setOwnAddressDefault d a).ownAddr = a ∧
    (setOwnAddressDefault d a).undef = d.undef := by
  unfold setOwnAddressDefault
  dsimp only
  split <;> exact ⟨⟨rfl, rfl, rfl, rfl, rfl, rfl⟩, rfl, rfl, rfl⟩

/-- `setOwnAddress` on a device that is like the image. -/
theorem own_stage (hc : Clear W.kind s f) (d : Dev) (a : Word)
    (hl : ∀ i, ¬ AtStart W.kind s i → ¬ TableEntry W.kind f i → i ≠ 0x17 → i ≠ 0x18 → d.ee i = f i) :
    Stage W s f a (setOwnAddress W d a) ∧ SameRest d (setOwnAddress W d a) ∧
    (setOwnAddress W d a).undef = d.undef ∧
    (Loading W.kind f → (setOwnAddress W d a).eeModified = true) ∧
    (¬ Loading W.kind f → (setOwnAddress W d a).eeModified = true ∨
      (setOwnAddress W d a).eeModified = d.eeModified ∧ a = makeWord (d.ee 0x17) (d.ee 0x18)) := by
  obtain ⟨t1, t2⟩ := same_table hc hl
  obtain ⟨r1, r2, r3, r4⟩ := default_rest d a
  by_cases hL : Loading W.kind f
  · obtain ⟨ar, o, ht, hin, c1, c2⟩ := hc hL
    have ht' : TableAt W.kind d.ee ar o := ⟨⟨ht.1.1, t1.trans ht.1.2⟩, by rw [t2]; exact ht.2⟩
    rw [own_table d a ar o ht' hin]
    have huniq : ∀ ar' o', TableAt W.kind f ar' o' → ar' = ar ∧ o' = o := by
      intro ar' o' h'
      have e : (ar', o') = (ar, o) := Option.some.inj (h'.2.symm.trans ht.2)
      cases e; exact ⟨rfl, rfl⟩
    by_cases he : ar = .ee
    · subst he
      rw [if_pos rfl]
      have n17 : o = 0x16 ∨ o + 1 ≠ 0x17 ∧ o + 2 ≠ 0x17 ∧ o + 1 ≠ 0x18 ∧ o + 2 ≠ 0x18 := by
        obtain ⟨-, -, -, -, p1, -⟩ := c1 rfl (o + 1) (Or.inl rfl)
        obtain ⟨-, -, -, -, p2, -⟩ := c1 rfl (o + 2) (Or.inr rfl)
        omega
      have q : ∀ i, i ≠ o + 1 → i ≠ o + 2 →
          upd (upd (setOwnAddressDefault d a).ee (o + 1) (highByte a)) (o + 2) (lowByte a) i =
            (setOwnAddressDefault d a).ee i := by
        intro i h1 h2
        unfold upd
        rw [if_neg h2, if_neg h1]
      refine ⟨⟨?_, ?_, ?_, r3, ?_⟩, ⟨r1.1, r1.2, r1.3, r1.4, r1.5, r1.6⟩, r4, fun _ => rfl, fun h => absurd hL h⟩
      · intro i h1 h2 h3 h4
        dsimp only
        rw [q i (fun h => h2 ⟨o, ht, Or.inl h⟩) (fun h => h2 ⟨o, ht, Or.inr h⟩), default_ee, if_neg h3, if_neg h4]
        exact hl i h1 h2 h3 h4
      · dsimp only
        rcases n17 with rfl | n17
        · simp [upd]
        · rw [q _ (by omega) (by omega), default_ee, if_pos rfl]
      · dsimp only
        rcases n17 with rfl | n17
        · simp [upd]
        · rw [q _ (by omega) (by omega), default_ee, if_neg (by decide), if_pos rfl]
      · intro ar' o' h'
        obtain ⟨rfl, rfl⟩ := huniq ar' o' h'
        rw [if_pos rfl]
        dsimp only [upd]
        rw [if_neg (by omega), if_pos rfl, if_pos rfl]
        exact ⟨rfl, rfl⟩
    · rw [if_neg he]
      refine ⟨⟨?_, ?_, ?_, r3, ?_⟩, ⟨r1.1, r1.2, r1.3, r1.4, r1.5, r1.6⟩, r4, fun _ => rfl, fun h => absurd hL h⟩
      · intro i h1 h2 h3 h4
        dsimp only
        rw [default_ee, if_neg h3, if_neg h4]
        exact hl i h1 h2 h3 h4
      · dsimp only; rw [default_ee, if_pos rfl]
      · dsimp only; rw [default_ee, if_neg (by decide), if_pos rfl]
      · intro ar' o' h'
        obtain ⟨rfl, rfl⟩ := huniq ar' o' h'
        rw [if_neg he]
        dsimp only [upd]
        rw [if_neg (by omega), if_pos rfl, if_pos rfl]
        exact ⟨rfl, rfl⟩
  · have hL' : ¬ Loading W.kind d.ee := fun h => hL ⟨h.1, t1.symm.trans h.2⟩
    rw [own_notLoading d a hL']
    refine ⟨⟨?_, ?_, ?_, r3, ?_⟩, r1, r4, fun h => absurd h hL, fun _ => ?_⟩
    · intro i h1 h2 h3 h4
      rw [default_ee, if_neg h3, if_neg h4]
      exact hl i h1 h2 h3 h4
    · rw [default_ee, if_pos rfl]
    · rw [default_ee, if_neg (by decide), if_pos rfl]
    · intro ar o h; exact absurd h.1 hL
    · unfold setOwnAddressDefault
      dsimp only
      split
      · exact Or.inl rfl
      · rename_i h
        exact Or.inr ⟨rfl, by simpa using h⟩

/-- Writing the program's own bytes keeps the rest. -/
theorem Stage.write {A : Word} {d : Dev} (h : Stage W s f A d) (hc : Clear W.kind s f) (d' : Dev)
    (he : ∀ i, ¬ AtStart W.kind s i → d'.ee i = d.ee i) (hr : ∀ i, i ≠ 0x62 → i ≠ 0x63 → d'.ram i = d.ram i)
    (ho : d'.ownAddr = d.ownAddr) : Stage W s f A d' := by
  refine ⟨fun i h1 h2 h3 h4 => (he i h1).trans (h.like i h1 h2 h3 h4),
    (he _ (notAtStart _ _ (by simp))).trans h.high, (he _ (notAtStart _ _ (by simp))).trans h.low, ho.trans h.own, ?_⟩
  intro ar o ht
  obtain ⟨ar', o', ht', -, c1, c2⟩ := hc ht.1
  have e : (ar', o') = (ar, o) := Option.some.inj (ht'.2.symm.trans ht.2)
  cases e
  have := h.entry ar o ht
  by_cases hx : ar = .ee
  · rw [if_pos hx] at this ⊢
    rw [he _ (c1 hx _ (Or.inl rfl)).1, he _ (c1 hx _ (Or.inr rfl)).1]
    exact this
  · rw [if_neg hx] at this ⊢
    rw [hr _ (c2 hx _ (Or.inl rfl)).1 (c2 hx _ (Or.inl rfl)).2, hr _ (c2 hx _ (Or.inr rfl)).1 (c2 hx _ (Or.inr rfl)).2]
    exact this

/-- What `defaultBegin` and `bcu2Begin` leave for the loop. -/
structure Begun (W : World) (s : Setup) (f : Nat → Byte) (A : Word) (d : Dev) : Prop where
  stage : Stage W s f A d
  status : d.status = 0x2e#8
  runState : d.runState = 1#8
  restart : d.restart = .none
  undef : d.undef = false
  /-- changes outside `AtStart` are marked -/
  marked : d.eeModified = true ∨ (¬ Loading W.kind f ∧ A = savedAddress f)

theorem constructed_stage (hc : Clear W.kind s f) (mp : Option MemMap.St) :
    Stage W s f (savedAddress f) (setOwnAddress W (constructed f mp) (savedAddress f)) ∧
    SameRest (constructed f mp) (setOwnAddress W (constructed f mp) (savedAddress f)) ∧
    (setOwnAddress W (constructed f mp) (savedAddress f)).undef = false := by
  obtain ⟨h1, h2, h3, -⟩ := own_stage (W := W) hc (constructed f mp) (savedAddress f) (fun _ _ _ _ _ => rfl)
  exact ⟨h1, h2, h3⟩

theorem default_stage (hc : Clear W.kind s f) (mp : Option MemMap.St) :
    Stage W s f (savedAddress f) (defaultBegin W s (constructed f mp)) ∧
    (defaultBegin W s (constructed f mp)).restart = .none ∧ (defaultBegin W s (constructed f mp)).undef = false ∧
    (defaultBegin W s (constructed f mp)).mapper = mp := by
  obtain ⟨h1, h2, h3⟩ := constructed_stage (W := W) hc mp
  refine ⟨h1.write hc _ ?_ ?_ rfl, h2.restart, h3, h2.mapper⟩
  · intro i hi
    unfold defaultBegin
    dsimp only
    unfold AtStart at hi
    have : ∀ j, (3 ≤ j ∧ j ≤ 7) ∨ j = 0x0c ∨ j = 0x0d → i ≠ j := by
      rintro j hj rfl
      apply hi
      rcases hj with hj | hj | hj
      · exact Or.inl hj
      · exact Or.inr (Or.inl hj)
      · exact Or.inr (Or.inr (Or.inl hj))
    rw [upd_ne _ _ _ _ (this _ (by simp)), upd_ne _ _ _ _ (this _ (by simp)), upd_ne _ _ _ _ (this _ (by simp)),
      upd_ne _ _ _ _ (this _ (by simp)), upd_ne _ _ _ _ (this _ (by simp)), upd_ne _ _ _ _ (this _ (by simp)),
      upd_ne _ _ _ _ (this _ (by simp))]
    rfl
  · intro i h1 _
    unfold defaultBegin
    dsimp only
    rw [upd_ne _ _ _ _ h1]
    rfl

theorem table_stage (hc : Clear W.kind s f) (hk : W.kind ≠ .bcu1) {A : Word} (d : Dev) (h : Stage W s f A d) :
    Stage W s f A (tableOwnAddress W d) ∧ SameRest d (tableOwnAddress W d) ∧
    (tableOwnAddress W d).undef = d.undef ∧
    (Loading W.kind f → (tableOwnAddress W d).eeModified = true) ∧
    (¬ Loading W.kind f → (tableOwnAddress W d).eeModified = d.eeModified) := by
  obtain ⟨t1, t2⟩ := same_table hc h.like
  unfold tableOwnAddress
  by_cases hL : d.ee (loadStateOff + 1) = lsLoading
  · have hLf : Loading W.kind f := ⟨hk, t1.symm.trans hL⟩
    obtain ⟨ar, o, ht, hin, -, -⟩ := hc hLf
    obtain ⟨e1, e2⟩ := h.entry ar o ht
    rw [if_pos hL, t2, ht.2]
    dsimp only
    rw [if_pos hin, e1, e2, makeWord_high_low]
    obtain ⟨q1, q2, q3, q4, -⟩ := own_stage hc d A h.like
    exact ⟨q1, q2, q3, q4, fun hn => absurd hLf hn⟩
  · rw [if_neg hL]
    exact ⟨h, ⟨rfl, rfl, rfl, rfl, rfl, rfl⟩, rfl, fun hn => absurd (t1.trans hn.2) hL, fun _ => rfl⟩

theorem bcu2_stage (hc : Clear W.kind s f) (hk : W.kind ≠ .bcu1) (mp : Option MemMap.St) :
    Begun W s f (savedAddress f) (bcu2Begin W s (constructed f mp)) ∧
    (bcu2Begin W s (constructed f mp)).mapper = mp := by
  obtain ⟨h1, h2, h3, h4⟩ := default_stage (W := W) (s := s) hc mp
  unfold bcu2Begin
  dsimp only
  generalize hd1 : defaultBegin W s (constructed f mp) = d1 at h1 h2 h3 h4
  have hs1 : d1.status = 0x2e#8 ∧ d1.runState = 1#8 := by rw [← hd1]; exact ⟨rfl, rfl⟩
  generalize hd2 : ({ d1 with ram := upd d1.ram 0x63 0#8, ee := upd d1.ee 0x15 0#8 } : Dev) = d2
  have a15 : ∀ i, ¬ AtStart W.kind s i → i ≠ 0x15 := by
    rintro i hi rfl
    exact hi (Or.inr (Or.inr (Or.inr ⟨hk, Or.inl rfl⟩)))
  have st2 : Stage W s f (savedAddress f) d2 := by
    rw [← hd2]
    refine h1.write hc _ ?_ ?_ rfl
    · intro i hi; exact upd_ne _ _ _ _ (a15 i hi)
    · intro i _ hi; exact upd_ne _ _ _ _ hi
  obtain ⟨st3, r3, u3, m3, -⟩ := table_stage hc hk d2 st2
  have hs2 : d2.status = 0x2e#8 ∧ d2.runState = 1#8 ∧ d2.restart = .none ∧ d2.undef = false ∧ d2.mapper = mp := by
    rw [← hd2]; exact ⟨hs1.1, hs1.2, h2, h3, h4⟩
  generalize tableOwnAddress W d2 = d3 at st3 r3 u3 m3
  have st4 : Stage W s f (savedAddress f) (staticComTab s d3) ∧ SameRest { d3 with comTabStatic := s.comTab } (staticComTab s d3) ∧
      (staticComTab s d3).undef = d3.undef ∧ (d3.eeModified = true → (staticComTab s d3).eeModified = true) := by
    unfold staticComTab
    split
    · rename_i hcond
      refine ⟨st3.write hc _ ?_ (fun _ _ _ => rfl) rfl, ⟨rfl, rfl, rfl, rfl, rfl, rfl⟩, rfl, fun _ => rfl⟩
      intro i hi
      dsimp only
      unfold setWord
      have : i ≠ 0x37c ∧ i ≠ 0x37d := by
        constructor <;> rintro rfl
        · exact hi (Or.inr (Or.inr (Or.inr ⟨hk, Or.inr (Or.inr (Or.inr (Or.inr ⟨hcond.1, Or.inl rfl⟩)))⟩)))
        · exact hi (Or.inr (Or.inr (Or.inr ⟨hk, Or.inr (Or.inr (Or.inr (Or.inr ⟨hcond.1, Or.inr rfl⟩)))⟩)))
      rw [upd_ne _ _ _ _ this.2, upd_ne _ _ _ _ this.1]
    · exact ⟨st3.write hc _ (fun _ _ => rfl) (fun _ _ _ => rfl) rfl, ⟨rfl, rfl, rfl, rfl, rfl, rfl⟩, rfl, id⟩
  obtain ⟨st4, r4, u4, m4⟩ := st4
  generalize staticComTab s d3 = d4 at st4 r4 u4 m4
  refine ⟨⟨st4.write hc _ ?_ (fun _ _ _ => rfl) rfl, ?_, ?_, ?_, ?_, ?_⟩, ?_⟩
  · intro i hi
    dsimp only
    have hA : ∀ j, (0x38a ≤ j ∧ j < 0x390) ∨ j = 0x3a2 ∨ j = 0x3a3 → i ≠ j := by
      rintro j hj rfl
      refine hi (Or.inr (Or.inr (Or.inr ⟨hk, Or.inr ?_⟩)))
      rcases hj with hj | hj | hj
      · exact Or.inl hj
      · exact Or.inr (Or.inl hj)
      · exact Or.inr (Or.inr (Or.inl hj))
    rw [upd_ne _ _ _ _ (hA _ (by simp)), upd_ne _ _ _ _ (hA _ (by simp))]
    unfold blit
    rw [if_neg]
    intro hb
    exact hA i (Or.inl ⟨hb.1, hb.2⟩) rfl
  · exact (r4.status.trans r3.status).trans hs2.1
  · exact (r4.runState.trans r3.runState).trans hs2.2.1
  · exact (r4.restart.trans r3.restart).trans hs2.2.2.1
  · exact (u4.trans u3).trans hs2.2.2.2.1
  · by_cases hL : Loading W.kind f
    · exact Or.inl (m4 (m3 hL))
    · exact Or.inr ⟨hL, rfl⟩
  · exact (r4.mapper.trans r3.mapper).trans hs2.2.2.2.2

theorem begun (hc : Clear W.kind s f) (mp : Option MemMap.St) :
    Begun W s f (if savedAddress f = 0#16 then 0xffff#16 else savedAddress f) (beginDev W s (constructed f mp)) ∧
    (beginDev W s (constructed f mp)).enabled = true ∧ (beginDev W s (constructed f mp)).mapper = mp := by
  have h1 : Begun W s f (savedAddress f) (if W.kind = .bcu1 then defaultBegin W s (constructed f mp)
      else bcu2Begin W s (constructed f mp)) ∧ (if W.kind = .bcu1 then defaultBegin W s (constructed f mp)
      else bcu2Begin W s (constructed f mp)).mapper = mp := by
    split
    · rename_i hk
      obtain ⟨q1, q2, q3, q4⟩ := default_stage (W := W) (s := s) hc mp
      exact ⟨⟨q1, rfl, rfl, q2, q3, Or.inr ⟨fun h => h.1 hk, rfl⟩⟩, q4⟩
    · rename_i hk
      exact bcu2_stage hc hk mp
  unfold beginDev
  generalize (if W.kind = .bcu1 then defaultBegin W s (constructed f mp) else bcu2Begin W s (constructed f mp)) = d at h1
  obtain ⟨h1, hm⟩ := h1
  unfold beginEnd
  dsimp only
  rw [h1.stage.own]
  split
  · rename_i h0
    obtain ⟨q1, q2, q3, q4, q5⟩ := own_stage hc d 0xffff#16 h1.stage.like
    refine ⟨⟨q1.write hc _ (fun _ _ => rfl) (fun _ _ _ => rfl) rfl, q2.status.trans h1.status, q2.runState.trans h1.runState,
      q2.restart.trans h1.restart, q3.trans h1.undef, Or.inl ?_⟩, rfl, q2.mapper.trans hm⟩
    show (setOwnAddress W d 0xffff#16).eeModified = true
    by_cases hL : Loading W.kind f
    · exact q4 hL
    · rcases q5 hL with h | ⟨-, h⟩
      · exact h
      · exfalso
        rw [h1.stage.high, h1.stage.low, makeWord_high_low, h0] at h
        cases h
  · exact ⟨⟨h1.stage.write hc _ (fun _ _ => rfl) (fun _ _ _ => rfl) rfl, h1.status, h1.runState, h1.restart, h1.undef,
      h1.marked⟩, rfl, hm⟩

/-- `setOwnAddress` does not touch what the program writes itself. -/
theorem own_atStart (hc : Clear W.kind s f) (d : Dev) (a : Word)
    (hl : ∀ i, ¬ AtStart W.kind s i → ¬ TableEntry W.kind f i → i ≠ 0x17 → i ≠ 0x18 → d.ee i = f i)
    (i : Nat) (hi : AtStart W.kind s i) : (setOwnAddress W d a).ee i = d.ee i := by
  obtain ⟨t1, t2⟩ := same_table hc hl
  have h17 : i ≠ 0x17 := fun h => notAtStart W.kind s (i := i) (by simp [h]) hi
  have h18 : i ≠ 0x18 := fun h => notAtStart W.kind s (i := i) (by simp [h]) hi
  have hd : (setOwnAddressDefault d a).ee i = d.ee i := by rw [default_ee, if_neg h17, if_neg h18]
  by_cases hL : Loading W.kind f
  · obtain ⟨ar, o, ht, hin, c1, -⟩ := hc hL
    have ht' : TableAt W.kind d.ee ar o := ⟨⟨ht.1.1, t1.trans ht.1.2⟩, by rw [t2]; exact ht.2⟩
    rw [own_table d a ar o ht' hin]
    split
    · rename_i he
      dsimp only
      rw [upd_ne _ _ _ _ (fun h => (c1 he i (Or.inr h)).1 hi), upd_ne _ _ _ _ (fun h => (c1 he i (Or.inl h)).1 hi), hd]
    · exact hd
  · rw [own_notLoading d a (fun h => hL ⟨h.1, t1.symm.trans h.2⟩), hd]

/-- The values which the program writes itself: all types. -/
structure Ident (s : Setup) (e : Nat → Byte) : Prop where
  manufacturer : makeWord (e 0x03) (e 0x04) = s.manufacturer
  deviceType : makeWord (e 0x05) (e 0x06) = s.deviceType
  version : e 0x07 = s.version
  portA : e 0x0c = 0#8
  runError : e 0x0d = 0xff#8

/-- The values which the program writes itself: types with load states. -/
structure Ident2 (s : Setup) (e : Nat → Byte) : Prop where
  appType : e 0x15 = 0#8
  serial : ∀ j, j < 6 → e (0x38a + j) = s.serial j
  library : makeWord (e 0x3a2) (e 0x3a3) = s.libVersion
  comTab : s.comTab ≠ 0#16 → wordAt e 0x37c = s.comTab

theorem Ident.of_eq {e e' : Nat → Byte} (h : Ident s e) (he : ∀ i, i ≤ 0x0d → AtStart W.kind s i → e' i = e i) : Ident s e' := by
  have q : ∀ i, (3 ≤ i ∧ i ≤ 7) ∨ i = 0xc ∨ i = 0xd → e' i = e i := by
    intro i hi
    refine he i (by omega) ?_
    rcases hi with hi | hi | hi
    · exact Or.inl hi
    · exact Or.inr (Or.inl hi)
    · exact Or.inr (Or.inr (Or.inl hi))
  constructor
  · rw [q _ (by decide), q 4 (by decide)]; exact h.manufacturer
  · rw [q _ (by decide), q 6 (by decide)]; exact h.deviceType
  · rw [q _ (by decide)]; exact h.version
  · rw [q _ (by decide)]; exact h.portA
  · rw [q _ (by decide)]; exact h.runError

theorem default_ident (d : Dev) : Ident s (defaultBegin W s d).ee := by
  constructor <;> simp [defaultBegin, upd, makeWord_high_low]

theorem beginEnd_atStart (hc : Clear W.kind s f) (d : Dev)
    (hl : ∀ i, ¬ AtStart W.kind s i → ¬ TableEntry W.kind f i → i ≠ 0x17 → i ≠ 0x18 → d.ee i = f i)
    (i : Nat) (hi : AtStart W.kind s i) : (beginEnd W d).ee i = d.ee i := by
  unfold beginEnd
  dsimp only
  split
  · exact own_atStart hc d _ hl i hi
  · rfl

theorem bcu2_ident (hc : Clear W.kind s f) (hk : W.kind ≠ .bcu1) (mp : Option MemMap.St) :
    Ident s (bcu2Begin W s (constructed f mp)).ee ∧ Ident2 s (bcu2Begin W s (constructed f mp)).ee := by
  obtain ⟨h1, -, -, -⟩ := default_stage (W := W) (s := s) hc mp
  have hi := default_ident (W := W) (s := s) (constructed f mp)
  unfold bcu2Begin
  dsimp only
  generalize hd1 : defaultBegin W s (constructed f mp) = d1 at h1 hi
  generalize hd2 : ({ d1 with ram := upd d1.ram 0x63 0#8, ee := upd d1.ee 0x15 0#8 } : Dev) = d2
  have hi2 : Ident s d2.ee := by
    rw [← hd2]
    exact hi.of_eq (W := W) (fun i hi _ => upd_ne _ _ _ _ (by omega))
  have h15 : d2.ee 0x15 = 0#8 := by rw [← hd2]; simp [upd]
  have a15 : ∀ i, ¬ AtStart W.kind s i → i ≠ 0x15 := by
    rintro i hi rfl
    exact hi (Or.inr (Or.inr (Or.inr ⟨hk, Or.inl rfl⟩)))
  have hl2 : ∀ i, ¬ AtStart W.kind s i → ¬ TableEntry W.kind f i → i ≠ 0x17 → i ≠ 0x18 → d2.ee i = f i := by
    intro i q1 q2 q3 q4
    rw [← hd2]
    exact (upd_ne _ _ _ _ (a15 i q1)).trans (h1.like i q1 q2 q3 q4)
  have h3 : ∀ i, AtStart W.kind s i → (tableOwnAddress W d2).ee i = d2.ee i := by
    intro i hi
    unfold tableOwnAddress
    split
    · split
      · rfl
      · split
        · exact own_atStart hc d2 _ hl2 i hi
        · rfl
    · rfl
  generalize tableOwnAddress W d2 = d3 at h3
  have hi3 : Ident s d3.ee := hi2.of_eq (W := W) (fun i _ hi => h3 i hi)
  have h15 : d3.ee 0x15 = 0#8 := (h3 _ (Or.inr (Or.inr (Or.inr ⟨hk, Or.inl rfl⟩)))).trans h15
  have h4 : ∀ i, i < 0x37c → (staticComTab s d3).ee i = d3.ee i := by
    intro i hi
    unfold staticComTab
    split
    · dsimp only
      unfold setWord
      rw [upd_ne _ _ _ _ (by omega), upd_ne _ _ _ _ (by omega)]
    · rfl
  have h4c : s.comTab ≠ 0#16 → wordAt (staticComTab s d3).ee 0x37c = s.comTab := by
    intro h0
    unfold staticComTab
    split
    · unfold setWord wordAt
      simp [upd, makeWord_high_low]
    · rename_i h
      dsimp only
      by_cases he : wordAt d3.ee 0x37c = s.comTab
      · exact he
      · exact absurd ⟨h0, he⟩ h
  generalize staticComTab s d3 = d4 at h4 h4c
  have b : ∀ i, i < 0x38a → upd (upd (blit d4.ee 0x38a s.serial 0 6) 0x3a2 (highByte s.libVersion)) 0x3a3 (lowByte s.libVersion) i
      = d4.ee i := by
    intro i hi
    rw [upd_ne _ _ _ _ (by omega), upd_ne _ _ _ _ (by omega)]
    unfold blit
    rw [if_neg (by omega)]
  refine ⟨hi3.of_eq (W := W) fun i hi _ => (b i (by omega)).trans (h4 i (by omega)), ⟨?_, ?_, ?_, ?_⟩⟩
  · exact (b _ (by decide)).trans ((h4 _ (by decide)).trans h15)
  · intro j hj
    rw [upd_ne _ _ _ _ (by omega), upd_ne _ _ _ _ (by omega)]
    unfold blit
    rw [if_pos (by omega)]
    rw [Nat.zero_add, Nat.add_sub_cancel_left]
  · simp [upd, makeWord_high_low]
  · intro h0
    have := h4c h0
    unfold wordAt at this ⊢
    rw [b _ (by decide), b _ (by decide)]
    exact this

/-! ## The claims -/

/-- The address a device starts with: the saved one, and 15.15.255 if that is 0.0.0. -/
def startAddress (f : Nat → Byte) : Word := if savedAddress f = 0#16 then 0xffff#16 else savedAddress f

/-- The bytes of the EEPROM which a start may change: those which the program sets itself, the individual address
if it was 0.0.0, and the device's entry in an address table that is being loaded. -/
def ChangedAtStart (k : Kind) (s : Setup) (f : Nat → Byte) (i : Nat) : Prop :=
  AtStart k s i ∨ ((i = 0x17 ∨ i = 0x18) ∧ savedAddress f = 0#16) ∨ (TableEntry k f i ∧ i ≠ 0x17 ∧ i ≠ 0x18)

variable (W s f) in
/-- **C69 (part).** At the first loop after a start from the image `f` every byte of the EEPROM is as in the image,
except those listed in `ChangedAtStart`. The device has the saved individual address (or 15.15.255). It is not in
programming mode, no connection is open, no telegram is being sent, no restart is pending, the transport layer
is enabled. -/
theorem C69_starts_as_saved_partial (hc : Clear W.kind s f) (clock : Nat) (deb : Time.Debouncer) (led : Bool)
    (mp : Option MemMap.St) :
    let m := boot W s clock deb led f mp
    (∀ i, ¬ ChangedAtStart W.kind s f i → m.tl.app.ee i = f i) ∧
    m.tl.ownAddr = startAddress f ∧ m.tl.app.ownAddr = startAddress f ∧ savedAddress m.tl.app.ee = startAddress f ∧
    programmingMode m.tl.app = false ∧ m.tl.app.status = 0x2e#8 ∧ m.tl.phase = .closed ∧ (m.tl.tx = .free ∧ m.tl.con1 = .free ∧ m.tl.con2 = .free) ∧
    m.tl.enabled = true ∧ m.tl.app.enabled = true ∧ m.restart = .none ∧ m.tl.app.restart = .none ∧ m.off = none ∧
    m.tl.app.undef = false ∧ m.flash = f := by
  obtain ⟨h, he, -⟩ := begun (W := W) (s := s) hc mp
  refine ⟨?_, h.stage.own, h.stage.own, ?_, ?_, h.status, rfl, ⟨rfl, rfl, rfl⟩, rfl, he, rfl, h.restart, rfl, h.undef, rfl⟩
  · intro i hi
    have hn : savedAddress f = 0#16 ∨ (beginDev W s (constructed f mp)).ee 0x17 = f 0x17 ∧
        (beginDev W s (constructed f mp)).ee 0x18 = f 0x18 := by
      by_cases h0 : savedAddress f = 0#16
      · exact Or.inl h0
      · right
        rw [h.stage.high, h.stage.low, if_neg h0]
        exact ⟨highByte_makeWord _ _, lowByte_makeWord _ _⟩
    show (beginDev W s (constructed f mp)).ee i = f i
    by_cases h17 : i = 0x17
    · subst h17
      rcases hn with h0 | h0
      · exact absurd (Or.inr (Or.inl ⟨Or.inl rfl, h0⟩)) hi
      · exact h0.1
    by_cases h18 : i = 0x18
    · subst h18
      rcases hn with h0 | h0
      · exact absurd (Or.inr (Or.inl ⟨Or.inr rfl, h0⟩)) hi
      · exact h0.2
    exact h.stage.like i (fun q => hi (Or.inl q)) (fun q => hi (Or.inr (Or.inr ⟨q, h17, h18⟩))) h17 h18
  · show makeWord ((beginDev W s (constructed f mp)).ee 0x17) ((beginDev W s (constructed f mp)).ee 0x18) = _
    rw [h.stage.high, h.stage.low]
    exact makeWord_high_low _
  · show programmingMode (beginDev W s (constructed f mp)) = false
    unfold programmingMode
    rw [h.status]
    decide

variable (W s f) in
/-- **C69 (part).** The device identifies itself with the arguments of `begin`, whatever the image says. -/
theorem C69_identification_partial (hc : Clear W.kind s f) (clock : Nat) (deb : Time.Debouncer) (led : Bool)
    (mp : Option MemMap.St) :
    Ident s (boot W s clock deb led f mp).tl.app.ee ∧
    (W.kind ≠ .bcu1 → Ident2 s (boot W s clock deb led f mp).tl.app.ee) := by
  show Ident s (beginDev W s (constructed f mp)).ee ∧ (W.kind ≠ .bcu1 → Ident2 s (beginDev W s (constructed f mp)).ee)
  unfold beginDev
  by_cases hk : W.kind = .bcu1
  · rw [if_pos hk]
    obtain ⟨q1, -⟩ := default_stage (W := W) (s := s) hc mp
    exact ⟨(default_ident (W := W) _).of_eq (W := W) fun i _ hi => beginEnd_atStart hc _ q1.like i hi, fun h => absurd hk h⟩
  · rw [if_neg hk]
    obtain ⟨q1, -⟩ := bcu2_stage (s := s) hc hk mp
    obtain ⟨i1, i2⟩ := bcu2_ident (s := s) hc hk mp
    have e := beginEnd_atStart hc _ q1.stage.like
    refine ⟨i1.of_eq (W := W) fun i _ hi => e i hi, fun _ => ⟨?_, ?_, ?_, ?_⟩⟩
    · rw [e _ (Or.inr (Or.inr (Or.inr ⟨hk, Or.inl rfl⟩)))]; exact i2.appType
    · intro j hj
      rw [e _ (Or.inr (Or.inr (Or.inr ⟨hk, Or.inr (Or.inl ⟨by omega, by omega⟩)⟩)))]
      exact i2.serial j hj
    · rw [e _ (Or.inr (Or.inr (Or.inr ⟨hk, Or.inr (Or.inr (Or.inl rfl))⟩))),
        e _ (Or.inr (Or.inr (Or.inr ⟨hk, Or.inr (Or.inr (Or.inr (Or.inl rfl)))⟩)))]
      exact i2.library
    · intro h0
      have := i2.comTab h0
      unfold wordAt at this ⊢
      rw [e _ (Or.inr (Or.inr (Or.inr ⟨hk, Or.inr (Or.inr (Or.inr (Or.inr ⟨h0, Or.inl rfl⟩)))⟩))),
        e _ (Or.inr (Or.inr (Or.inr ⟨hk, Or.inr (Or.inr (Or.inr (Or.inr ⟨h0, Or.inr rfl⟩)))⟩)))]
      exact this

variable (W s f) in
/-- **C69 (part).** A device with load states runs its application after a start exactly if the image says that
address table, association table and application are loaded. -/
theorem C69_running_partial (hc : Clear W.kind s f) (hk : W.kind ≠ .bcu1) (clock : Nat) (deb : Time.Debouncer) (led : Bool)
    (mp : Option MemMap.St) :
    applicationRunning W.kind (boot W s clock deb led f mp).tl.app = true ↔
      f 0x371 = 1#8 ∧ f 0x372 = 1#8 ∧ f 0x373 = 1#8 := by
  obtain ⟨h, he, -⟩ := begun (W := W) (s := s) hc mp
  have q : ∀ i, i = 0x371 ∨ i = 0x372 ∨ i = 0x373 → (beginDev W s (constructed f mp)).ee i = f i := by
    intro i hi
    refine h.stage.like i (notAtStart _ _ ?_) (notEntry hc ?_) (by omega) (by omega)
    · rcases hi with hi | hi | hi <;> simp [hi]
    · rcases hi with hi | hi | hi <;> simp [hi]
  show applicationRunning W.kind (beginDev W s (constructed f mp)) = true ↔ _
  unfold applicationRunning
  rw [if_neg (by simp [he]), if_neg hk, h.runState, show loadStateOff = 0x370 from rfl, q (0x370 + 1) (by decide),
    q (0x370 + 2) (by decide), q (0x370 + 3) (by decide)]
  simp [lsLoaded, and_assoc]

variable (W s f) in
/-- **C69 (finding).** A `BCU1` runs its application after every start, whatever the image says: `begin` clears the
run error, so also after a download that was interrupted by a power failure. -/
theorem C69_interrupted_download (hk : W.kind = .bcu1) (clock : Nat) (deb : Time.Debouncer) (led : Bool)
    (mp : Option MemMap.St) :
    applicationRunning W.kind (boot W s clock deb led f mp).tl.app = true := by
  have hc : Clear W.kind s f := fun h => absurd hk h.1
  obtain ⟨h, he, -⟩ := begun (W := W) (s := s) hc mp
  have hi := (C69_identification_partial W s f hc clock deb led mp).1.runError
  show applicationRunning W.kind (beginDev W s (constructed f mp)) = true
  have hi : (beginDev W s (constructed f mp)).ee 0x0d = 0xff#8 := hi
  unfold applicationRunning
  rw [if_neg (by simp [he]), if_pos hk, h.runState, h.status, hi]
  decide

variable (W s f) in
theorem boot_synced (hc : Clear W.kind s f) (clock : Nat) (deb : Time.Debouncer) (led : Bool) (mp : Option MemMap.St) :
    Synced (AtStart W.kind s) (boot W s clock deb led f mp) := by
  obtain ⟨h, -, -⟩ := begun (W := W) (s := s) hc mp
  rcases h.marked with hm | ⟨hL, h0⟩
  · exact Or.inl hm
  · right
    intro i hi
    refine ((C69_starts_as_saved_partial W s f hc clock deb led mp).1 i ?_).symm
    rintro (q | ⟨-, q⟩ | ⟨⟨o, q, -⟩, -⟩)
    · exact hi q
    · rw [if_pos q, q] at h0; cases h0
    · exact hL q.1

end

/-! ### A life with power failures -/

section
variable (W : World) (group : Dev → Buf → Nat → Dev × Option (Buf → Buf)) (s : Setup)

/-- Nothing in this life is excluded from the claim: no load control by property (C68), and at each power failure
the image is `Clear`. -/
def LifeOk (m : Main) : List LifeEv → Prop
  | [] => True
  | .ev e :: es => (∀ i t len, e = .loop i → i.rx = some (t, len) → ¬ PropertyLoad W t) ∧
      LifeOk (lifeStep W group s m (.ev e)) es
  | .power c d l :: es => Clear W.kind s m.flash ∧ LifeOk (lifeStep W group s m (.power c d l)) es

theorem life_synced (hg : GroupMarks group) (es : List LifeEv) : ∀ m, LifeOk W group s m es →
    Synced (AtStart W.kind s) m → Synced (AtStart W.kind s) (life W group s m es) := by
  induction es with
  | nil => intro m _ h; exact h
  | cons e es ih =>
    intro m hok h
    cases e with
    | ev e =>
      exact ih _ hok.2 (mainStep_synced W group _ hg m e hok.1 h)
    | power c d l =>
      exact ih _ hok.2 (boot_synced W s m.flash hok.1 c d l _)

/-- **C69 (part).** In every life of a device that started from some image `f`, with any number of power failures and
resets: if nothing is marked as modified, a power failure changes no byte of the EEPROM beyond `ChangedAtStart`.
(C68: after a loop without a connection that found nothing being sent, nothing is marked.) -/
theorem C69_power_failure_partial (hg : GroupMarks group) (f : Nat → Byte) (hf : Clear W.kind s f) (c0 : Nat)
    (d0 : Time.Debouncer) (l0 : Bool) (mp : Option MemMap.St) (es : List LifeEv)
    (hes : LifeOk W group s (boot W s c0 d0 l0 f mp) es) (m : Main)
    (hm : m = life W group s (boot W s c0 d0 l0 f mp) es) (hn : m.tl.app.eeModified = false)
    (hc : Clear W.kind s m.flash) (clock : Nat) (deb : Time.Debouncer) (led : Bool) (i : Nat)
    (hi : ¬ ChangedAtStart W.kind s m.flash i) :
    (powerCycle W s clock deb led m).tl.app.ee i = m.tl.app.ee i := by
  have h := life_synced W group s hg es _ hes (boot_synced W s f hf c0 d0 l0 mp)
  rw [← hm] at h
  have h := h.resolve_left (by rw [hn]; decide)
  rw [← h i (fun q => hi (Or.inl q))]
  exact (C69_starts_as_saved_partial W s m.flash hc clock deb led _).1 i hi

end

/-! ### The hypotheses are met -/

/-- An image: address 1.1.5, the load states given, address table at `ta`. -/
def exImage (ls : Byte) (ta : Word) : Nat → Byte := fun i =>
  if i = 0x17 then 0x11#8 else if i = 0x18 then 0x05#8
  else if i = 0x371 then ls else if i = 0x372 then 1#8 else if i = 0x373 then 1#8
  else if i = 0x378 then lowByte ta else if i = 0x379 then highByte ta else BitVec.ofNat 8 i

def exSetup : Setup := ⟨0x004c#16, 0x0438#16, 0x21#8, 0x5000#16, fun j => BitVec.ofNat 8 (0xe0 + j), 0x1234#16⟩

theorem exImage_clear : Clear .bcu2 exSetup (exImage 1#8 0x0116#16) := by
  intro h; exact absurd h.2 (by decide)

/-- A table that is being loaded: at the usual place, and elsewhere in the EEPROM. -/
theorem exImage_clear2 (ta : Word) (h : ta = 0x0116#16 ∨ ta = 0x0200#16) : Clear .bcu2 exSetup (exImage 2#8 ta) := by
  intro hL
  rcases h with rfl | rfl
  · refine ⟨.ee, 0x16, ⟨hL, by decide⟩, by decide, fun _ => ?_, fun h => absurd rfl h⟩
    rintro i (rfl | rfl) <;> (unfold AtStart; decide)
  · refine ⟨.ee, 0x100, ⟨hL, by decide⟩, by decide, fun _ => ?_, fun h => absurd rfl h⟩
    rintro i (rfl | rfl) <;> (unfold AtStart; decide)

def exBoot (f : Nat → Byte) : Main := boot exWorld exSetup 7 ⟨0#32, 0, 1⟩ true f none

example : (exBoot (exImage 1#8 0x0116#16)).tl.ownAddr = 0x1105#16 :=
  (C69_starts_as_saved_partial exWorld exSetup _ exImage_clear 7 ⟨0#32, 0, 1⟩ true none).2.1
example : applicationRunning .bcu2 (exBoot (exImage 1#8 0x0116#16)).tl.app = true :=
  (C69_running_partial exWorld exSetup _ exImage_clear (by decide) 7 ⟨0#32, 0, 1⟩ true none).2 (by decide)
example : applicationRunning .bcu2 (exBoot (exImage 2#8 0x0116#16)).tl.app ≠ true := fun h =>
  absurd ((C69_running_partial exWorld exSetup _ (exImage_clear2 _ (Or.inl rfl)) (by decide) 7 ⟨0#32, 0, 1⟩ true none).1 h).1
    (by decide)
example : Ident exSetup (exBoot (exImage 2#8 0x0200#16)).tl.app.ee :=
  (C69_identification_partial exWorld exSetup _ (exImage_clear2 _ (Or.inr rfl)) 7 ⟨0#32, 0, 1⟩ true none).1

/-- A table at 0x0200 that is being loaded: the start writes the individual address into its first entry. -/
example : (exImage 2#8 0x0200#16) 0x101 = 1#8 ∧ (exBoot (exImage 2#8 0x0200#16)).tl.app.ee 0x101 = 0x11#8 ∧
    (exBoot (exImage 2#8 0x0200#16)).tl.app.eeModified = true := by decide +kernel

/-- The address 0.0.0 becomes 15.15.255. -/
example : (exBoot (fun _ => 0#8)).tl.ownAddr = 0xffff#16 ∧ startAddress (fun _ => 0#8) = 0xffff#16 := by decide +kernel

/-- A life: start, configuration by a memory write, power failure. -/
def exLife (l : List Byte) : List LifeEv := (exSession l).map .ev

theorem exLife_ok (W : World) (s : Setup) (l : List Byte) (h : ¬ PropertyLoad W (exFrom l)) (m : Main) :
    LifeOk W exGroup s m (exLife l) := by
  have hp : ∀ k, k = 0x80#8 ∨ k = 0x81#8 → ¬ PropertyLoad W (exFrom [k]) := by
    rintro k (rfl | rfl) ⟨-, h, -⟩ <;> (revert h; decide +kernel)
  have key : ∀ (es : List MainEv), (∀ e ∈ es, ∀ i t len, e = .loop i → i.rx = some (t, len) → ¬ PropertyLoad W t) →
      ∀ m, LifeOk W exGroup s m (es.map .ev) := by
    intro es
    induction es with
    | nil => intro _ m; trivial
    | cons e es ih =>
      intro h m
      exact ⟨h e (List.mem_cons_self ..), ih (fun e he => h e (List.mem_cons_of_mem _ he)) _⟩
  refine key _ ?_ m
  intro e he i t len h1 h2
  subst h1
  simp only [exSession, exDo, List.mem_append, List.mem_cons, List.not_mem_nil, MainEv.loop.injEq, or_false,
    reduceCtorEq, false_or] at he
  rcases he with ((rfl | rfl) | (rfl | rfl)) | (rfl | rfl)
  · cases h2; exact hp _ (Or.inl rfl)
  · cases h2
  · cases h2; exact h
  · cases h2
  · cases h2; exact hp _ (Or.inr rfl)
  · cases h2

def exConfigured : Main := life exWorld exGroup exSetup (exBoot (exImage 1#8 0x0116#16)) (exLife exConfig)

theorem exConfigured_facts : exConfigured.tl.app.eeModified = false ∧ exConfigured.flash 0x371 = 1#8 ∧
    exConfigured.tl.app.ee 0x50 = 0x99#8 ∧ savedAddress exConfigured.flash = 0x1105#16 := by decide +kernel

theorem exConfigured_clear : Clear .bcu2 exSetup exConfigured.flash := fun h =>
  absurd (exConfigured_facts.2.1.symm.trans h.2) (by decide)

example : (powerCycle exWorld exSetup 0 ⟨0#32, 0, 1⟩ true exConfigured).tl.app.ee 0x50 = 0x99#8 := by
  rw [C69_power_failure_partial exWorld exGroup exSetup (fun _ _ _ => Or.inr ⟨rfl, rfl⟩) _ exImage_clear 7 ⟨0#32, 0, 1⟩ true
    none (exLife exConfig) (exLife_ok _ _ _ (by unfold PropertyLoad; decide +kernel) _) exConfigured rfl exConfigured_facts.1
    exConfigured_clear 0 ⟨0#32, 0, 1⟩ true 0x50 ?_]
  · exact exConfigured_facts.2.2.1
  · rintro (h | ⟨h, -⟩ | ⟨⟨o, h, -⟩, -⟩)
    · revert h; unfold AtStart; decide
    · omega
    · exact absurd (exConfigured_facts.2.1.symm.trans h.1.2) (by decide)

/-- **C69 (finding)**, a history: a `BCU1` whose application was stopped for a download (0 written to the run error at
0x010d) by a connection which is closed; nothing is left to be saved. The application does not run. After a power
failure it runs. -/
theorem C69_interrupted_download_history :
    let W : World := { exWorld with kind := .bcu1 }
    let m := life W exGroup exSetup (boot W exSetup 7 ⟨0#32, 0, 1⟩ true (exImage 1#8 0x0116#16) none)
      (exLife [0x42#8, 0x81#8, 0x01#8, 0x0d#8, 0x00#8])
    m.flash 0x0d = 0#8 ∧ m.tl.app.eeModified = false ∧ m.tl.phase = .closed ∧
    applicationRunning .bcu1 m.tl.app = false ∧
    applicationRunning .bcu1 (powerCycle W exSetup 0 ⟨0#32, 0, 1⟩ true m).tl.app = true := by decide +kernel

end Verif.Dev
