import Verif.Dev.Spec
import Verif.Dev.MemLoop

/-!
# Lemmas for the memory services (C22)
-/

namespace Verif.Dev

open Verif.Knx
open Verif.MemMap (Ideal)

variable {W : World}

/-! ## Helper lemmas -/

theorem writeBytes_spec (data : List Byte) : ∀ (m : Nat → Option Byte) (a k : Nat),
    k ≤ data.length → (∀ i, i < k → (m (a + i)).isSome = true) →
    (k = data.length ∨ (m (a + k)).isSome = false) →
    (writeBytes m a data).2 = decide (k = data.length) ∧
    ∀ b, (writeBytes m a data).1 b =
      if a ≤ b ∧ b < a + k then some (data.getD (b - a) 0#8) else m b := by
  induction data with
  | nil =>
    intro m a k hk _ _
    have : k = 0 := by simpa using hk
    subst this
    exact ⟨rfl, fun b => by rw [if_neg (by omega)]; rfl⟩
  | cons x xs ih =>
    intro m a k hk hp hend
    have e : writeBytes m a (x :: xs) = if (m a).isSome then
        writeBytes (fun b => if b = a then some x else m b) (a + 1) xs else (m, false) := rfl
    cases k with
    | zero =>
      rcases hend with h | h
      · simp at h
      · rw [e, if_neg (by rw [Nat.add_zero] at h; rw [h]; decide)]
        exact ⟨by simp, fun b => by rw [if_neg (by omega)]⟩
    | succ k =>
      have h0 := hp 0 (by omega)
      rw [Nat.add_zero] at h0
      rw [e, if_pos h0]
      have hk' : k ≤ xs.length := by simpa using hk
      obtain ⟨i1, i2⟩ := ih (fun b => if b = a then some x else m b) (a + 1) k hk'
        (fun i hi => by
          have := hp (i + 1) (by omega)
          rw [if_neg (by omega)]
          have e2 : a + 1 + i = a + (i + 1) := by omega
          rw [e2]; exact this)
        (by
          rcases hend with h | h
          · left; simpa using h
          · right
            rw [if_neg (by omega)]
            have e2 : a + 1 + k = a + (k + 1) := by omega
            rw [e2]; exact h)
      refine ⟨by rw [i1]; simp, fun b => ?_⟩
      rw [i2]
      by_cases hb : a + 1 ≤ b ∧ b < a + 1 + k
      · rw [if_pos hb, if_pos (by omega)]
        have e2 : b - a = (b - (a + 1)) + 1 := by omega
        rw [e2, List.getD_cons_succ]
      · rw [if_neg hb]
        by_cases hba : b = a
        · rw [if_pos hba, if_pos (by omega), hba, Nat.sub_self]; rfl
        · rw [if_neg hba, if_neg (by omega)]

theorem memOp_write {d : Dev} (hm : MapperOk W d) (a : Nat) (buf : Nat → Byte) (off : Nat)
    (data : List Byte) (hlen : data.length ≤ 256) (ha : NotStatusAlias W a data.length)
    (hd : ∀ i, i < data.length → buf (off + i) = data.getD i 0#8) :
    Written W d (memOp W false d a buf off data.length).1 a data ∧
    ((memOp W false d a buf off data.length).2.2 = true ↔
      data ≠ [] ∧ (writeBytes (space W d) a data).2 = true) := by
  obtain ⟨t, hr, hsep⟩ := mapperOk_rep hm
  by_cases h0 : data.length = 0
  · have hn : data = [] := List.eq_nil_of_length_eq_zero h0
    subst hn
    refine ⟨⟨fun b => rfl, SameElse.refl _, hm, ?_⟩, ?_⟩
    · constructor
      · exact Or.inl
      · rintro (h | ⟨i, hi, _⟩)
        · exact h
        · exact absurd hi (Nat.not_lt_zero i)
    · show (false = true) ↔ _
      simp
  · obtain ⟨t', p', m, c, h1, h2⟩ := memOp_spec (W := W) false hr hsep a buf off data.length
      (by omega) hlen ha
    rw [h1]
    have hms : ∀ x, (space W d x).isSome = true ↔ Present W t x := fun x => by
      rw [rep_space hr]; exact view_isSome _ _ _
    have hw := c.write rfl
    have hmle : m ≤ data.length := by rcases h2 with h | ⟨h, _⟩ <;> omega
    obtain ⟨w1, w2⟩ := writeBytes_spec data (space W d) a m hmle
      (fun i hi => (hms _).2 (c.present i hi))
      (by
        rcases h2 with h | ⟨_, h⟩
        · exact Or.inl h
        · right
          cases hx : (space W d (a + m)).isSome with
          | false => rfl
          | true => exact absurd ((hms _).1 hx) h)
    have hsep' : Sep W t' := fun x hx hmx => hsep x hx (by
      unfold Mp at hmx ⊢; rw [← c.mapped]; exact hmx)
    refine ⟨⟨fun b => ?_, c.same, rep_mapperOk c.rep hsep', ?_⟩, ?_⟩
    · rw [w2, rep_space c.rep, hw.2.1, rep_space hr]
      dsimp only
      by_cases hb : a ≤ b ∧ b < a + m
      · rw [if_pos hb, if_pos hb, hd _ (by omega)]
      · rw [if_neg hb, if_neg hb]
    · rw [hw.2.2]
      constructor
      · rintro (h | ⟨i, hi, he⟩)
        · exact Or.inl h
        · exact Or.inr ⟨i, by omega, he, fun j hj => (hms _).2 (c.present j (by omega))⟩
      · rintro (h | ⟨i, hi, he, hp⟩)
        · exact Or.inl h
        · refine Or.inr ⟨i, ?_, he⟩
          rcases h2 with h | ⟨_, h⟩
          · omega
          · by_cases him : i < m
            · exact him
            · exfalso
              by_cases hieq : i = m
              · rw [← hieq] at h
                exact h (Or.inr (Or.inl he))
              · exact h ((hms _).1 (hp m (by omega)))
    · show decide (m = data.length) = true ↔ _
      rw [w1]
      constructor
      · exact fun h => ⟨fun hc => h0 (by rw [hc]; rfl), h⟩
      · exact fun h => h.2

theorem memOp_read {d : Dev} (hm : MapperOk W d) (a : Nat) (buf : Nat → Byte) (off n : Nat)
    (hlen : n ≤ 256) (ha : NotStatusAlias W a n) :
    (memOp W true d a buf off n).1 = d ∧
    ((memOp W true d a buf off n).2.2 = true ↔
      0 < n ∧ ∀ i, i < n → (space W d (a + i)).isSome = true) ∧
    (∀ j, j < off → (memOp W true d a buf off n).2.1 j = buf j) ∧
    ((memOp W true d a buf off n).2.2 = true →
      ∀ i, i < n → space W d (a + i) = some ((memOp W true d a buf off n).2.1 (off + i))) := by
  obtain ⟨t, hr, hsep⟩ := mapperOk_rep hm
  by_cases h0 : n = 0
  · subst h0
    have e : memOp W true d a buf off 0 = (d, buf, false) := rfl
    rw [e]
    exact ⟨rfl, ⟨fun h => (by cases h), fun h => absurd h.1 (Nat.lt_irrefl 0)⟩, fun _ _ => rfl,
      fun h => (by cases h)⟩
  · obtain ⟨t', p', m, c, h1, h2⟩ := memOp_spec (W := W) true hr hsep a buf off n (by omega) hlen ha
    rw [h1]
    have hms : ∀ x, (space W d x).isSome = true ↔ Present W t x := fun x => by
      rw [rep_space hr]; exact view_isSome _ _ _
    obtain ⟨r1, r2, r3⟩ := c.read rfl
    refine ⟨r1, ?_, fun j hj => ?_, fun h i hi => ?_⟩
    · dsimp only
      rw [decide_eq_true_iff]
      constructor
      · intro h
        exact ⟨by omega, fun i hi => (hms _).2 (c.present i (by omega))⟩
      · rintro ⟨_, h⟩
        rcases h2 with h2 | ⟨h2, h3⟩
        · exact h2
        · exact absurd ((hms _).1 (h m h2)) h3
    · have := r3 j
      rw [if_neg (by dsimp only; omega)] at this
      exact this
    · have hmn : m = n := by simpa using h
      have := r3 (off + i)
      rw [if_pos (by dsimp only; omega)] at this
      dsimp only at this
      rw [rep_space hr]
      have e : off + i - off = i := by omega
      rw [e] at this
      exact this

end Verif.Dev
