import Verif.Com.Spec

/-!
# A concrete configuration, used to show that the hypotheses of the theorems can be met
-/

namespace Verif.Com

/-- BCU1 with four objects: 1 bit, 2 bytes, 14 bytes, 1 bit; object 0 and object 3 share a group address. -/
def demoC : Config where
  own := 0x1203#16
  groups := [0x0901#16, 0x0A02#16, 0x0B03#16]
  assoc := [(1, 0), (2, 1), (3, 2), (1, 3)]
  objs := [⟨0x50, 0x5C#8, 0⟩, ⟨0x51, 0x5C#8, 8⟩, ⟨0x53, 0x5C#8, 14⟩, ⟨0x61, 0x5C#8, 0⟩]
  flagsAt := 0x40
  addrAt := 0x116
  assocAt := 0x11F
  commAt := 0x128

/-- The memory that holds the tables and zero everywhere else. -/
def memOf (B : Bcu) (C : Config) : Mem := fun a =>
  match (image B C).find? (fun t => decide (t.1 ≤ a) && decide (a < t.1 + t.2.length)) with
  | some t => t.2.getD (a - t.1) 0#8
  | none => 0#8

@[inherit_doc memOf] def demoM : Mem := memOf BCU1 demoC

theorem demo_inData (a : Nat) : inData BCU1 demoC a ↔ (0x40 ≤ a ∧ a < 0x42) ∨ (0x50 ≤ a ∧ a < 0x62) := by
  simp [inData, inFlags, inValue, valueAt, demoC, BCU1, bytesOf]
  omega

theorem demo_valid : Valid BCU1 demoC where
  counts := by decide
  assocs := by decide
  distinct := by decide
  types := by decide
  values := by unfold inSegment; decide
  flags := by unfold inSegment; decide
  tables := by decide
  pointers := by show _ ∧ _; decide
  separate := by
    intro t ht i hi hd
    rw [demo_inData] at hd
    have : ∀ t ∈ image BCU1 demoC, 0x100 ≤ t.1 := by decide
    have := this t ht
    omega
  flagsSeparate := by
    intro a ha o ho hv
    have : ∀ o ∈ demoC.objs, 0x50 ≤ valueAt BCU1 o := by decide
    have h1 := this o ho
    have h2 := hv.1
    have h3 := ha.2
    simp [demoC] at h3
    omega

theorem demo_configured : Configured BCU1 demoM demoC where
  valid := demo_valid
  tables := by
    have : ∀ t ∈ image BCU1 demoC, ∀ i, (h : i < t.2.length) → demoM (t.1 + i) = t.2[i] := by decide +kernel
    exact this

theorem demo_separate : Separate BCU1 demoC := by
  have key : ∀ i, (hi : i < demoC.objs.length) → ∀ j, (hj : j < demoC.objs.length) → i ≠ j →
      valueAt BCU1 demoC.objs[i] + bytesOf demoC.objs[i].type ≤ valueAt BCU1 demoC.objs[j] ∨
      valueAt BCU1 demoC.objs[j] + bytesOf demoC.objs[j].type ≤ valueAt BCU1 demoC.objs[i] := by decide
  intro i j hi hj hij a ⟨⟨h1, h2⟩, ⟨h3, h4⟩⟩
  have := key i hi j hj hij
  omega

/-- A second device, mask 0701 (the classes of the BCU2), with a 14-byte and a 1-bit object on the same groups. -/
def demoC2 : Config where
  own := 0x1204#16
  groups := [0x0B03#16, 0x0901#16, 0x0C04#16]
  assoc := [(1, 0), (2, 1), (3, 2)]
  objs := [⟨0x650, 0x5C#8, 14⟩, ⟨0x65E, 0x5C#8, 0⟩, ⟨0x65F, 0x5C#8, 8⟩]
  flagsAt := 0x640
  addrAt := 0x4000
  assocAt := 0x4010
  commAt := 0x4020

@[inherit_doc memOf] def demoM2 : Mem := memOf MASK0701 demoC2

theorem demo2_inData (a : Nat) : inData MASK0701 demoC2 a ↔ (0x640 ≤ a ∧ a < 0x642) ∨ (0x650 ≤ a ∧ a < 0x661) := by
  simp [inData, inFlags, inValue, valueAt, demoC2, MASK0701, bytesOf]
  omega

theorem demo2_valid : Valid MASK0701 demoC2 where
  counts := by decide
  assocs := by decide
  distinct := by decide
  types := by decide
  values := by unfold inSegment; decide
  flags := by unfold inSegment; decide
  tables := by decide +kernel
  pointers := by show _ ∧ _; decide
  separate := by
    intro t ht i hi hd
    rw [demo2_inData] at hd
    have : ∀ t ∈ image MASK0701 demoC2, 0x3f00 ≤ t.1 := by decide +kernel
    have := this t ht
    omega
  flagsSeparate := by
    intro a ha o ho hv
    have : ∀ o ∈ demoC2.objs, 0x650 ≤ valueAt MASK0701 o := by decide
    have h1 := this o ho
    have h2 := hv.1
    have h3 := ha.2
    simp [demoC2] at h3
    omega

theorem demo2_configured : Configured MASK0701 demoM2 demoC2 where
  valid := demo2_valid
  tables := by
    have : ∀ t ∈ image MASK0701 demoC2, ∀ i, (h : i < t.2.length) → demoM2 (t.1 + i) = t.2[i] := by decide +kernel
    exact this

theorem demo2_separate : Separate MASK0701 demoC2 := by
  have key : ∀ i, (hi : i < demoC2.objs.length) → ∀ j, (hj : j < demoC2.objs.length) → i ≠ j →
      valueAt MASK0701 demoC2.objs[i] + bytesOf demoC2.objs[i].type ≤ valueAt MASK0701 demoC2.objs[j] ∨
      valueAt MASK0701 demoC2.objs[j] + bytesOf demoC2.objs[j].type ≤ valueAt MASK0701 demoC2.objs[i] := by decide
  intro i j hi hj hij a ⟨⟨h1, h2⟩, ⟨h3, h4⟩⟩
  have := key i hi j hj hij
  omega

end Verif.Com
