import Verif.Eeprom.Model

/-!
# Specification of the user EEPROM

An ideal EEPROM: the current content, a flag that there is something to save, and the image that a
restart restores.
-/

namespace Verif.Eeprom

/-- An EEPROM image of `n` bytes. -/
abbrev Image := Nat → Byte

/-- The ideal EEPROM. -/
structure Ideal where
  now : Image
  dirty : Bool
  saved : Image

/-- The last byte of a saved image is always 0: the code uses it to mark used pages. -/
def sealed (n : Nat) (d : Image) : Image := fun i => if i + 1 = n then 0#8 else d i

/-- What a change, a save and a restart should do. -/
def Ideal.step (n : Nat) (s : Ideal) : Ev → Ideal
  | .change d => { s with now := d, dirty := true }
  | .poke d => { s with now := d }
  | .save => if s.dirty then ⟨sealed n s.now, false, sealed n s.now⟩ else s
  | .restart => ⟨s.saved, false, s.saved⟩

def Ideal.run (n : Nat) (s : Ideal) (es : List Ev) : Ideal := es.foldl (Ideal.step n) s

/-- Equal images. -/
def Same (n : Nat) (a b : Image) : Prop := ∀ i, i < n → a i = b i

/-- A device whose EEPROM was never saved. -/
def blankIdeal : Ideal := ⟨fun _ => 0#8, false, fun _ => 0#8⟩

/-- The supported device types. -/
def Known (c : Cfg) : Prop := c = bcu1 ∨ c = bcu2 ∨ c = mask0701

/-- The flash sizes of the supported controllers: whole sectors, at most 64 KiB. -/
def FlashOk (E : Iap.Env) : Prop := E.top % 0x1000 = 0 ∧ 0x1000 ≤ E.top ∧ E.top ≤ 0x10000

/-- Address of page `k` of the EEPROM sector, which begins at `sectorAddr E = E.top - 0x1000`. -/
def pageAddr (E : Iap.Env) (c : Cfg) (k : Nat) : Nat := sectorAddr E + c.flashSize * k

/-- The last byte of a page tells whether the page is in use. -/
def Used (E : Iap.Env) (c : Cfg) (f : Nat → Byte) (k : Nat) : Prop :=
  f (pageAddr E c k + (c.size - 1)) ≠ 0xff#8

/-- Page `j` is the last page in use. -/
def LastUsed (E : Iap.Env) (c : Cfg) (f : Nat → Byte) (j : Nat) : Prop :=
  j < numPages c ∧ Used E c f j ∧ ∀ k, j < k → k < numPages c → ¬ Used E c f k

/-- All pages behind the last page in use are erased. -/
def Clean (E : Iap.Env) (c : Cfg) (f : Nat → Byte) : Prop :=
  ∀ k, k < numPages c → (∀ m, k ≤ m → m < numPages c → ¬ Used E c f m) →
    ∀ i, i < c.size → f (pageAddr E c k + i) = 0xff#8

/-- The whole EEPROM sector is erased. -/
def Blank (E : Iap.Env) (f : Nat → Byte) : Prop :=
  ∀ i, i < 0x1000 → f (sectorAddr E + i) = 0xff#8

end Verif.Eeprom
