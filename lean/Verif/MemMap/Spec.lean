import Verif.MemMap.Model

/-!
# Specification of the virtual memory

An ideal memory: 256 virtual pages of 256 bytes, each mapped or not, and the number of pages that
can still be mapped.
-/

namespace Verif.MemMap

structure Ideal where
  /-- virtual page number → mapped -/
  mapped : Nat → Bool
  /-- address → value (of mapped pages) -/
  val : Nat → Byte
  /-- number of unused flash pages -/
  free : Nat

/-- The page becomes mapped and is filled with zeros. -/
def Ideal.map (t : Ideal) (v : Nat) : Ideal :=
  { mapped := fun w => if w = v then true else t.mapped w
    val := fun a => if a / 256 = v then 0#8 else t.val a
    free := t.free - 1 }

def Ideal.set (t : Ideal) (a : Nat) (d : Byte) : Ideal :=
  { t with val := fun b => if b = a then d else t.val b }

/-- Map the pages `v, …, v + n - 1`, as far as there are free pages. -/
def Ideal.mapRange : Nat → Nat → Ideal → Ideal × Int
  | 0, _, t => (t, 0)
  | n + 1, v, t =>
    if t.mapped v then mapRange n (v + 1) t
    else if t.free = 0 then (t, -4)
    else mapRange n (v + 1) (t.map v)

/-- An address of the 16 bit address space. -/
def Valid (a : Int) : Prop := 0 ≤ a ∧ a < 0x10000

instance (a : Int) : Decidable (Valid a) := by unfold Valid; infer_instance

/-- Results: 0 success, -1 invalid address, -2 not mapped, -4 out of memory, -8 invalid length. -/
def Ideal.step (auto : Bool) (t : Ideal) : Op → Ideal × Int × Byte
  | .write a d =>
    if ¬ Valid a then (t, -1, 0#8)
    else if t.mapped (a.toNat / 256) then (t.set a.toNat d, 0, 0#8)
    else if auto then
      if t.free = 0 then (t, -4, 0#8) else ((t.map (a.toNat / 256)).set a.toNat d, 0, 0#8)
    else (t, -2, 0#8)
  | .read a _ =>
    if ¬ Valid a then (t, -1, 0#8)
    else if t.mapped (a.toNat / 256) then (t, 0, t.val a.toNat) else (t, -2, 0#8)
  | .addRange a len =>
    if ¬ Valid a ∨ a % 256 ≠ 0 then (t, -1, 0#8)
    else if len % 256 ≠ 0 then (t, -8, 0#8)
    else let r := t.mapRange (len / 256).toNat (a.toNat / 256); (r.1, r.2, 0#8)
  | .flush => (t, 0, 0#8)
  | .restart => (t, 0, 0#8)

def Ideal.run (auto : Bool) : Ideal → List Op → Ideal × List (Int × Byte)
  | t, [] => (t, [])
  | t, op :: ops =>
    let r := t.step auto op
    let r2 := Ideal.run auto r.1 ops
    (r2.1, r.2 :: r2.2)

/-- Nothing mapped yet; one page of the area holds the allocation table. -/
def emptyIdeal (c : Cfg) : Ideal := ⟨fun _ => false, fun _ => 0#8, c.flashSize / 256 - 1⟩

/-- The use of the interface the theorems are about:

* without `autoAddPage` only mapped addresses are written;
* ranges lie inside the address space and are shorter than 64 KiB;
* `addRange` is only called, and the device is only restarted, when nothing is pending: at the
  start, or when `doFlash` or `addRange` was called after the last write;
* the device is not restarted after an `addRange` that ran out of memory halfway.

The findings in Props.lean show what happens otherwise.  `pending` says that there may be unsaved
data, `torn` that an `addRange` ran out of memory halfway. -/
def Disciplined (auto : Bool) : Ideal → (pending torn : Bool) → List Op → Prop
  | _, _, _, [] => True
  | t, pending, torn, op :: ops =>
    let r := t.step auto op
    match op with
    | .write a _ =>
      (auto = true ∨ (Valid a → t.mapped (a.toNat / 256) = true)) ∧ Disciplined auto r.1 true torn ops
    | .read _ _ => Disciplined auto r.1 pending torn ops
    | .addRange a len =>
      pending = false ∧ (0 ≤ len ∧ a / 256 + len / 256 ≤ 256 ∧ len / 256 < 256) ∧
        Disciplined auto r.1 false (torn || (r.2.1 == -4 && t.free != 0)) ops
    | .flush => Disciplined auto r.1 false torn ops
    | .restart => pending = false ∧ torn = false ∧ Disciplined auto r.1 false false ops

/-- Page-aligned area of at least two pages (the table and one more) that fits into the flash and
does not begin at address 0. -/
structure AreaOk (E : Iap.Env) (c : Cfg) : Prop where
  base : c.flashBase % 256 = 0 ∧ 0 < c.flashBase
  size : c.flashSize % 256 = 0 ∧ 512 ≤ c.flashSize
  fits : c.flashBase + c.flashSize ≤ E.top
  top : E.top % 0x1000 = 0 ∧ E.top ≤ 0x10000

/-- The page of the allocation table is erased. -/
def FreshArea (c : Cfg) (f : Nat → Byte) : Prop := ∀ i, i < 256 → f (c.flashBase + i) = 0xff#8

/-- The page of the allocation table contains two zeros: the constructor considers it corrupt. -/
def CorruptTable (c : Cfg) (f : Nat → Byte) : Prop :=
  ∃ i j, i < j ∧ j < 256 ∧ f (c.flashBase + i) = 0#8 ∧ f (c.flashBase + j) = 0#8

/-- An `addRange` that stays inside the 256 virtual pages (the code keeps eight bits of the number
of pages). -/
def InRange : Op → Prop
  | .addRange a len => a / 256 + len / 256 % 256 ≤ 256
  | _ => True

end Verif.MemMap
