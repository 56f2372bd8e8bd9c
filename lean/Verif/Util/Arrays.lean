import Verif.Base

/-!
# Searching an array

Modelled: the three functions `indexOf` (arrays.cpp:14-45), which differ in the type of the elements only.
-/

namespace Verif.Arrays

open Verif

/-- The loop of `indexOf` from index `idx` on, arrays.cpp:16-22, 27-33, 38-44. `reads` collects the indices at which the array is read. The type `short` of the index is that of
`count`, so it does not overflow while it is less. -/
def loop {α : Type} [DecidableEq α] (val : α) (arr : Nat → α) (count : BitVec 16) (idx : Nat) (reads : List Nat) : Int × List Nat :=
  if (idx : Int) < count.toInt then
    if arr idx = val then (idx, reads ++ [idx]) else loop val arr count (idx + 1) (reads ++ [idx])
  else (-1, reads)
termination_by (count.toInt - idx).toNat
decreasing_by omega

/-- `indexOf`, arrays.cpp:14-45. -/
def indexOf {α : Type} [DecidableEq α] (val : α) (arr : Nat → α) (count : BitVec 16) : Int × List Nat := loop val arr count 0 []

/-! ## C79 -/

theorem loop_spec {α : Type} [DecidableEq α] (val : α) (arr : Nat → α) (count : BitVec 16) (idx : Nat) (reads : List Nat) :
    (∃ n : Nat, (loop val arr count idx reads).1 = n ∧ idx ≤ n ∧ (n : Int) < count.toInt ∧ arr n = val ∧ (∀ j, idx ≤ j → j < n → arr j ≠ val) ∧
      (loop val arr count idx reads).2 = reads ++ (List.range (n + 1 - idx)).map (· + idx)) ∨
    ((loop val arr count idx reads).1 = -1 ∧ (∀ j, idx ≤ j → (j : Int) < count.toInt → arr j ≠ val) ∧
      (loop val arr count idx reads).2 = reads ++ (List.range (count.toInt.toNat - idx)).map (· + idx)) := by
  rw [loop]
  by_cases h : (idx : Int) < count.toInt
  · rw [if_pos h]
    by_cases h2 : arr idx = val
    · rw [if_pos h2]
      left
      refine ⟨idx, rfl, Nat.le_refl _, h, h2, fun j a b => absurd a (by omega), ?_⟩
      have : idx + 1 - idx = 1 := by omega
      rw [this]
      simp [List.range_succ]
    · rw [if_neg h2]
      have key : ∀ m : Nat, idx + 1 ≤ m → [idx] ++ (List.range (m - (idx + 1))).map (· + (idx + 1)) = (List.range (m - idx)).map (· + idx) := by
        intro m hm
        have e : m - idx = (m - (idx + 1)) + 1 := by omega
        rw [e, List.range_succ_eq_map]
        simp only [List.map_cons, Nat.zero_add, List.singleton_append, List.map_map, List.cons.injEq, true_and]
        apply List.map_congr_left
        intro a _
        simp only [Function.comp]
        omega
      rcases loop_spec val arr count (idx + 1) (reads ++ [idx]) with ⟨n, a, b, c, d, e, f⟩ | ⟨a, b, c⟩
      · left
        refine ⟨n, a, by omega, c, d, ?_, ?_⟩
        · intro j j1 j2
          by_cases hj : j = idx
          · rw [hj]; exact h2
          · exact e j (by omega) j2
        · rw [f, List.append_assoc, key (n + 1) (by omega)]
      · right
        refine ⟨a, ?_, ?_⟩
        · intro j j1 j2
          by_cases hj : j = idx
          · rw [hj]; exact h2
          · exact b j (by omega) j2
        · rw [c, List.append_assoc, key _ (by omega)]
  · rw [if_neg h]
    right
    refine ⟨rfl, fun j j1 j2 => absurd j2 (by omega), ?_⟩
    have : count.toInt.toNat - idx = 0 := by omega
    rw [this]; simp
termination_by (count.toInt - idx).toNat
decreasing_by omega

/-- The result is the index of the first equal element, if there is one. -/
theorem C79_found {α : Type} [DecidableEq α] (val : α) (arr : Nat → α) (count : BitVec 16) (n : Nat) :
    (indexOf val arr count).1 = n ↔ ((n : Int) < count.toInt ∧ arr n = val ∧ ∀ j < n, arr j ≠ val) := by
  unfold indexOf
  rcases loop_spec val arr count 0 [] with ⟨m, a, _, c, d, e, _⟩ | ⟨a, b, _⟩
  · rw [a]
    constructor
    · intro h
      have : m = n := by omega
      subst this
      exact ⟨c, d, fun j hj => e j (by omega) hj⟩
    · rintro ⟨h1, h2, h3⟩
      by_cases hlt : m < n
      · exact absurd d (h3 m hlt)
      · by_cases hgt : n < m
        · exact absurd h2 (e n (by omega) hgt)
        · have : m = n := by omega
          rw [this]
  · rw [a]
    constructor
    · intro h; omega
    · rintro ⟨h1, h2, _⟩
      exact absurd h2 (b n (by omega) h1)

/-- Otherwise it is -1; there is no other result. -/
theorem C79_not_found {α : Type} [DecidableEq α] (val : α) (arr : Nat → α) (count : BitVec 16) :
    ((indexOf val arr count).1 = -1 ↔ ∀ j : Nat, (j : Int) < count.toInt → arr j ≠ val) ∧ -1 ≤ (indexOf val arr count).1 := by
  unfold indexOf
  rcases loop_spec val arr count 0 [] with ⟨m, a, _, c, d, e, _⟩ | ⟨a, b, _⟩
  · rw [a]
    refine ⟨⟨fun h => by omega, fun h => absurd d (h m c)⟩, by omega⟩
  · rw [a]
    exact ⟨⟨fun _ j hj => b j (by omega) hj, fun _ => rfl⟩, by omega⟩

/-- Only elements within the first `count` are read, and none behind the one found. -/
theorem C79_reads {α : Type} [DecidableEq α] (val : α) (arr : Nat → α) (count : BitVec 16) :
    ∀ i ∈ (indexOf val arr count).2, (i : Int) < count.toInt ∧ ((indexOf val arr count).1 ≠ -1 → (i : Int) ≤ (indexOf val arr count).1) := by
  unfold indexOf
  intro i hi
  rcases loop_spec val arr count 0 [] with ⟨m, a, _, c, d, e, f⟩ | ⟨a, b, f⟩
  · rw [f] at hi
    simp at hi
    rw [a]
    exact ⟨by omega, fun _ => by omega⟩
  · rw [f] at hi
    simp at hi
    rw [a]
    exact ⟨by omega, fun h => absurd rfl h⟩

/-! ### Cases -/

example : indexOf 7#8 (fun i => BitVec.ofNat 8 (i * i)) 10#16 = (-1, [0, 1, 2, 3, 4, 5, 6, 7, 8, 9]) := by decide +kernel
example : indexOf 9#8 (fun i => BitVec.ofNat 8 (i * i)) 10#16 = (3, [0, 1, 2, 3]) := by decide +kernel
/-- A negative count. -/
example : indexOf 0#8 (fun _ => 0#8) 0x8000#16 = (-1, []) := by decide +kernel

end Verif.Arrays
