import Verif.Boot.Startup

/-!
# C115: the start-up code gives every section its content and leaves the rest of the memory alone
-/

namespace Verif.Boot.Startup

open Verif

/-! ## Specification -/

/-- An initialised section: where its content is kept, where it belongs, and how many bytes it has. -/
structure Section where
  load : U32
  exec : U32
  len : U32

/-- The number of words that hold `len` bytes. -/
def words (len : U32) : Nat := (len.toNat + 3) / 4

/-- The address of the `k`-th word from `a` on. -/
def word (a : U32) (k : Nat) : U32 := a + BitVec.ofNat 32 (4 * k)

/-- `a` is the address of one of the words from `start` on that hold `len` bytes. -/
def InArea (a start len : U32) : Prop := ∃ k, k < words len ∧ a = word start k

/-- The table at `p` has these initialised sections (three words for each). -/
def DataTable (m : Memory) : U32 → List Section → Prop
  | _, [] => True
  | p, s :: l => m p = s.load ∧ m (word p 1) = s.exec ∧ m (word p 2) = s.len ∧ DataTable m (word p 3) l

/-- The table at `p` has these sections to be cleared: address and length (two words for each). -/
def BssTable (m : Memory) : U32 → List (U32 × U32) → Prop
  | _, [] => True
  | p, b :: l => m p = b.1 ∧ m (word p 1) = b.2 ∧ BssTable m (word p 2) l

/-- The areas that are written: address and length. -/
def targets (data : List Section) (bss : List (U32 × U32)) : List (U32 × U32) := data.map (fun s => (s.exec, s.len)) ++ bss

/-- A layout as a linker makes it: the table at `T` has these sections, one after the other, it ends below the end of the address space, no section is longer than 2³² − 4
bytes, no two targets overlap, and neither the table nor the content to be copied is inside a target. -/
structure Layout (m : Memory) (T : U32) (data : List Section) (bss : List (U32 × U32)) : Prop where
  dataTable : DataTable m T data
  bssTable : BssTable m (word T (3 * data.length)) bss
  fits : T.toNat + 12 * data.length + 8 * bss.length < 2 ^ 32
  short : ∀ t ∈ targets data bss, t.2.toNat ≤ 2 ^ 32 - 4
  apart : (targets data bss).Pairwise fun t u => ∀ a, InArea a t.1 t.2 → ¬ InArea a u.1 u.2
  tableOutside : ∀ i, i < 3 * data.length + 2 * bss.length → ∀ t ∈ targets data bss, ¬ InArea (word T i) t.1 t.2
  contentOutside : ∀ s ∈ data, ∀ k, k < words s.len → ∀ t ∈ targets data bss, ¬ InArea (word s.load k) t.1 t.2

/-! ## Lemmas -/

theorem word_zero (a : U32) : word a 0 = a := by unfold word; simp

theorem word_word (a : U32) (i k : Nat) : word (word a i) k = word a (i + k) := by
  unfold word
  rw [BitVec.add_assoc]
  congr 1
  apply BitVec.eq_of_toNat_eq
  simp [Nat.mul_add]

theorem word_add4 (a : U32) (k : Nat) : word a k + 4#32 = word a (k + 1) := (word_word a k 1)

theorem word_inj {a : U32} {i k : Nat} (hi : 4 * i < 2 ^ 32) (hk : 4 * k < 2 ^ 32) (h : word a i = word a k) : i = k := by
  unfold word at h
  have h2 := (BitVec.add_right_inj (a)).mp h
  have h3 := congrArg BitVec.toNat h2
  rw [BitVec.toNat_ofNat, BitVec.toNat_ofNat, Nat.mod_eq_of_lt hi, Nat.mod_eq_of_lt hk] at h3
  omega

theorem words_small {len : U32} (h : len.toNat ≤ 2 ^ 32 - 4) {k : Nat} (hk : k < words len) : 4 * (k + 1) < 2 ^ 32 := by
  unfold words at hk
  omega

theorem loop_lt {len : U32} (h : len.toNat ≤ 2 ^ 32 - 4) {j : Nat} (hj : j ≤ words len) : (BitVec.ofNat 32 (4 * j) < len) ↔ j < words len := by
  unfold words at *
  rw [BitVec.lt_def, BitVec.toNat_ofNat]
  rw [Nat.mod_eq_of_lt (by omega)]
  omega

theorem loop_next (j : Nat) : BitVec.ofNat 32 (4 * j) + 4#32 = BitVec.ofNat 32 (4 * (j + 1)) := by
  apply BitVec.eq_of_toNat_eq
  simp [Nat.mul_add]

theorem dataLoop_spec {len rom start : U32} (h : len.toNat ≤ 2 ^ 32 - 4)
    (hout : ∀ k, k < words len → ¬ InArea (word rom k) start len) :
    ∀ (fuel : Nat) (m : Memory) (j : Nat), j ≤ words len → words len - j < fuel →
      ∃ m', dataLoop len fuel m (word start j) (word rom j) (BitVec.ofNat 32 (4 * j)) = some m' ∧
        (∀ a, (∀ k, j ≤ k → k < words len → a ≠ word start k) → m' a = m a) ∧
        ∀ k, j ≤ k → k < words len → m' (word start k) = m (word rom k) := by
  intro fuel
  induction fuel with
  | zero => intro m j _ h; omega
  | succ fuel ih =>
    intro m j hj hf
    by_cases hlt : j < words len
    · obtain ⟨m', e, h1, h2⟩ := ih (put m (word start j) (m (word rom j))) (j + 1) hlt (by omega)
      refine ⟨m', ?_, fun a ha => ?_, fun k hk hkw => ?_⟩
      · unfold dataLoop
        rw [if_pos ((loop_lt h hj).mpr hlt), word_add4, word_add4, loop_next]
        exact e
      · rw [h1 a (fun k hk hkw => ha k (by omega) hkw)]
        exact if_neg (ha j (Nat.le_refl _) hlt)
      · by_cases q : k = j
        · subst q
          rw [h1 _ (fun i hi hiw e => by
            have := word_inj (by have := words_small h hkw; omega) (by have := words_small h hiw; omega) e
            omega)]
          exact if_pos rfl
        · rw [h2 k (by omega) hkw]
          exact if_neg (fun e => hout k hkw ⟨j, hlt, e⟩)
    · refine ⟨m, ?_, fun _ _ => rfl, fun k _ _ => by omega⟩
      unfold dataLoop
      rw [if_neg (fun q => hlt ((loop_lt h hj).mp q))]

theorem bssLoop_spec {len start : U32} (h : len.toNat ≤ 2 ^ 32 - 4) :
    ∀ (fuel : Nat) (m : Memory) (j : Nat), j ≤ words len → words len - j < fuel →
      ∃ m', bssLoop len fuel m (word start j) (BitVec.ofNat 32 (4 * j)) = some m' ∧
        (∀ a, (∀ k, j ≤ k → k < words len → a ≠ word start k) → m' a = m a) ∧
        ∀ k, j ≤ k → k < words len → m' (word start k) = 0#32 := by
  intro fuel
  induction fuel with
  | zero => intro m j _ h; omega
  | succ fuel ih =>
    intro m j hj hf
    by_cases hlt : j < words len
    · obtain ⟨m', e, h1, h2⟩ := ih (put m (word start j) 0#32) (j + 1) hlt (by omega)
      refine ⟨m', ?_, fun a ha => ?_, fun k hk hkw => ?_⟩
      · unfold bssLoop
        rw [if_pos ((loop_lt h hj).mpr hlt), word_add4, loop_next]
        exact e
      · rw [h1 a (fun k hk hkw => ha k (by omega) hkw)]
        exact if_neg (ha j (Nat.le_refl _) hlt)
      · by_cases q : k = j
        · subst q
          rw [h1 _ (fun i hi hiw e => by
            have := word_inj (by have := words_small h hkw; omega) (by have := words_small h hiw; omega) e
            omega)]
          exact if_pos rfl
        · exact h2 k (by omega) hkw
    · refine ⟨m, ?_, fun _ _ => rfl, fun k _ _ => by omega⟩
      unfold bssLoop
      rw [if_neg (fun q => hlt ((loop_lt h hj).mp q))]

theorem dataInit_spec {len rom start : U32} (h : len.toNat ≤ 2 ^ 32 - 4) (hout : ∀ k, k < words len → ¬ InArea (word rom k) start len)
    (fuel : Nat) (m : Memory) (hf : 2 ^ 30 < fuel) :
    ∃ m', dataInit fuel m rom start len = some m' ∧ (∀ a, ¬ InArea a start len → m' a = m a) ∧
      ∀ k, k < words len → m' (word start k) = m (word rom k) := by
  obtain ⟨m', e, h1, h2⟩ := dataLoop_spec h hout fuel m 0 (Nat.zero_le _) (by unfold words; omega)
  rw [word_zero, word_zero] at e
  exact ⟨m', e, fun a ha => h1 a (fun k _ hk q => ha ⟨k, hk, q⟩), fun k hk => h2 k (Nat.zero_le _) hk⟩

theorem bssInit_spec {len start : U32} (h : len.toNat ≤ 2 ^ 32 - 4) (fuel : Nat) (m : Memory) (hf : 2 ^ 30 < fuel) :
    ∃ m', bssInit fuel m start len = some m' ∧ (∀ a, ¬ InArea a start len → m' a = m a) ∧
      ∀ k, k < words len → m' (word start k) = 0#32 := by
  obtain ⟨m', e, h1, h2⟩ := bssLoop_spec (start := start) h fuel m 0 (Nat.zero_le _) (by unfold words; omega)
  rw [word_zero] at e
  exact ⟨m', e, fun a ha => h1 a (fun k _ hk q => ha ⟨k, hk, q⟩), fun k hk => h2 k (Nat.zero_le _) hk⟩

theorem DataTable.frame {m m' : Memory} : ∀ (l : List Section) (p : U32), (∀ i, i < 3 * l.length → m' (word p i) = m (word p i)) → DataTable m p l →
    DataTable m' p l := by
  intro l
  induction l with
  | nil => intro p _ _; trivial
  | cons s l ih =>
    intro p hf h
    obtain ⟨h1, h2, h3, h4⟩ := h
    rw [List.length_cons] at hf
    refine ⟨?_, ?_, ?_, ih _ (fun i hi => ?_) h4⟩
    · have := hf 0 (by omega); rw [word_zero] at this; rw [this, h1]
    · rw [hf 1 (by omega), h2]
    · rw [hf 2 (by omega), h3]
    · rw [word_word]; exact hf _ (by omega)

theorem BssTable.frame {m m' : Memory} : ∀ (l : List (U32 × U32)) (p : U32), (∀ i, i < 2 * l.length → m' (word p i) = m (word p i)) → BssTable m p l →
    BssTable m' p l := by
  intro l
  induction l with
  | nil => intro p _ _; trivial
  | cons s l ih =>
    intro p hf h
    obtain ⟨h1, h2, h4⟩ := h
    rw [List.length_cons] at hf
    refine ⟨?_, ?_, ih _ (fun i hi => ?_) h4⟩
    · have := hf 0 (by omega); rw [word_zero] at this; rw [this, h1]
    · rw [hf 1 (by omega), h2]
    · rw [word_word]; exact hf _ (by omega)

theorem word_toNat {p : U32} {k : Nat} (h : p.toNat + 4 * k < 2 ^ 32) : (word p k).toNat = p.toNat + 4 * k := by
  unfold word
  rw [BitVec.toNat_add, BitVec.toNat_ofNat, Nat.mod_eq_of_lt (a := 4 * k) (by omega), Nat.mod_eq_of_lt h]

theorem data_spec (fuel : Nat) (hfuel : 2 ^ 30 < fuel) : ∀ (l : List Section) (m : Memory) (p : U32) (n : Nat), l.length < n →
    p.toNat + 12 * l.length < 2 ^ 32 → DataTable m p l → (∀ s ∈ l, s.len.toNat ≤ 2 ^ 32 - 4) →
    (l.Pairwise fun t u => ∀ a, InArea a t.exec t.len → ¬ InArea a u.exec u.len) →
    (∀ i, i < 3 * l.length → ∀ t ∈ l, ¬ InArea (word p i) t.exec t.len) →
    (∀ s ∈ l, ∀ k, k < words s.len → ∀ t ∈ l, ¬ InArea (word s.load k) t.exec t.len) →
    ∃ m', dataSections (word p (3 * l.length)) fuel n m p = some (m', word p (3 * l.length)) ∧
      (∀ a, (∀ t ∈ l, ¬ InArea a t.exec t.len) → m' a = m a) ∧
      ∀ s ∈ l, ∀ k, k < words s.len → m' (word s.exec k) = m (word s.load k) := by
  intro l
  induction l with
  | nil =>
    intro m p n hn _ _ _ _ _ _
    cases n with
    | zero => simp at hn
    | succ n =>
      refine ⟨m, ?_, fun _ _ => rfl, fun s hs => by cases hs⟩
      show dataSections (word p 0) fuel (n + 1) m p = some (m, word p 0)
      rw [word_zero]
      unfold dataSections
      rw [if_neg (by rw [BitVec.lt_def]; omega)]
  | cons s l ih =>
    intro m p n hn hfit ht hshort hpair htab hcon
    rw [List.length_cons] at hfit htab hn
    cases n with
    | zero => omega
    | succ n =>
      obtain ⟨t1, t2, t3, t4⟩ := ht
      rw [List.pairwise_cons] at hpair
      obtain ⟨m1, e1, o1, c1⟩ := dataInit_spec (hshort s List.mem_cons_self)
        (fun k hk => hcon s List.mem_cons_self k hk s List.mem_cons_self) fuel m hfuel
      have hw3 : (word p 3).toNat = p.toNat + 12 := word_toNat (by omega)
      obtain ⟨m', e2, o2, c2⟩ := ih m1 (word p 3) n (by omega) (by omega)
        (DataTable.frame l _ (fun i hi => by
          rw [word_word]
          exact o1 _ (htab _ (by omega) s List.mem_cons_self)) t4)
        (fun x hx => hshort x (List.mem_cons_of_mem _ hx)) hpair.2
        (fun i hi t ht => by rw [word_word]; exact htab _ (by omega) t (List.mem_cons_of_mem _ ht))
        (fun x hx k hk t ht => hcon x (List.mem_cons_of_mem _ hx) k hk t (List.mem_cons_of_mem _ ht))
      have hend : word (word p 3) (3 * l.length) = word p (3 * (s :: l).length) := by
        rw [word_word, List.length_cons]; congr 1; omega
      rw [hend] at e2
      refine ⟨m', ?_, fun a ha => ?_, fun x hx k hk => ?_⟩
      · unfold dataSections
        rw [if_pos (by rw [BitVec.lt_def, word_toNat (by rw [List.length_cons]; omega), List.length_cons]; omega)]
        rw [t1, show m (p + 4#32) = s.exec from t2, show m (p + 8#32) = s.len from t3, e1]
        exact e2
      · rw [o2 a (fun t ht => ha t (List.mem_cons_of_mem _ ht)), o1 a (ha s List.mem_cons_self)]
      · rcases List.mem_cons.mp hx with hx | hx
        · subst hx
          rw [o2 _ (fun t ht => hpair.1 t ht _ ⟨k, hk, rfl⟩), c1 k hk]
        · rw [c2 x hx k hk, o1 _ (hcon x (List.mem_cons_of_mem _ hx) k hk s List.mem_cons_self)]

theorem bss_spec (fuel : Nat) (hfuel : 2 ^ 30 < fuel) : ∀ (l : List (U32 × U32)) (m : Memory) (p : U32) (n : Nat), l.length < n →
    p.toNat + 8 * l.length < 2 ^ 32 → BssTable m p l → (∀ s ∈ l, s.2.toNat ≤ 2 ^ 32 - 4) →
    (∀ i, i < 2 * l.length → ∀ t ∈ l, ¬ InArea (word p i) t.1 t.2) →
    ∃ m', bssSections (word p (2 * l.length)) fuel n m p = some m' ∧
      (∀ a, (∀ t ∈ l, ¬ InArea a t.1 t.2) → m' a = m a) ∧
      ∀ s ∈ l, ∀ k, k < words s.2 → m' (word s.1 k) = 0#32 := by
  intro l
  induction l with
  | nil =>
    intro m p n hn _ _ _ _
    cases n with
    | zero => simp at hn
    | succ n =>
      refine ⟨m, ?_, fun _ _ => rfl, fun s hs => by cases hs⟩
      show bssSections (word p 0) fuel (n + 1) m p = some m
      rw [word_zero]
      unfold bssSections
      rw [if_neg (by rw [BitVec.lt_def]; omega)]
  | cons s l ih =>
    intro m p n hn hfit ht hshort htab
    rw [List.length_cons] at hfit htab hn
    cases n with
    | zero => omega
    | succ n =>
      obtain ⟨t1, t2, t4⟩ := ht
      obtain ⟨m1, e1, o1, c1⟩ := bssInit_spec (start := s.1) (hshort s List.mem_cons_self) fuel m hfuel
      have hw2 : (word p 2).toNat = p.toNat + 8 := word_toNat (by omega)
      obtain ⟨m', e2, o2, c2⟩ := ih m1 (word p 2) n (by omega) (by omega)
        (BssTable.frame l _ (fun i hi => by
          rw [word_word]
          exact o1 _ (htab _ (by omega) s List.mem_cons_self)) t4)
        (fun x hx => hshort x (List.mem_cons_of_mem _ hx))
        (fun i hi t ht => by rw [word_word]; exact htab _ (by omega) t (List.mem_cons_of_mem _ ht))
      have hend : word (word p 2) (2 * l.length) = word p (2 * (s :: l).length) := by
        rw [word_word, List.length_cons]; congr 1; omega
      rw [hend] at e2
      refine ⟨m', ?_, fun a ha => ?_, fun x hx k hk => ?_⟩
      · unfold bssSections
        rw [if_pos (by rw [BitVec.lt_def, word_toNat (by rw [List.length_cons]; omega), List.length_cons]; omega)]
        rw [t1, show m (p + 4#32) = s.2 from t2, e1]
        exact e2
      · rw [o2 a (fun t ht => ha t (List.mem_cons_of_mem _ ht)), o1 a (ha s List.mem_cons_self)]
      · by_cases q : ∃ t ∈ l, InArea (word x.1 k) t.1 t.2
        · obtain ⟨t, ht, i, hi, e⟩ := q
          rw [e]; exact c2 t ht i hi
        · rcases List.mem_cons.mp hx with hx | hx
          · subst hx
            rw [o2 _ (fun t ht h => q ⟨t, ht, h⟩), c1 k hk]
          · exact c2 x hx k hk

/-! ## The property -/

/-- **C115.** With a section table as a linker makes it, the start-up code ends, however many sections there are and however long they are. Then every initialised section
has the content kept for it, every section to be cleared is zero, and every word outside these sections (for example one left by the program that ran
before the restart) is what it was. -/
theorem C115_startup (m : Memory) (T : U32) (data : List Section) (bss : List (U32 × U32)) (h : Layout m T data bss) :
    ∃ m', (∀ fuel, 2 ^ 30 + data.length + bss.length < fuel →
        resetISR T (word T (3 * data.length)) (word T (3 * data.length + 2 * bss.length)) fuel m = some m') ∧
      (∀ s ∈ data, ∀ k, k < words s.len → m' (word s.exec k) = m (word s.load k)) ∧
      (∀ b ∈ bss, ∀ k, k < words b.2 → m' (word b.1 k) = 0#32) ∧
      ∀ a, (∀ t ∈ targets data bss, ¬ InArea a t.1 t.2) → m' a = m a := by
  obtain ⟨hd, hb, hfit, hshort, hap, htab, hcon⟩ := h
  unfold targets at hshort hap htab hcon ⊢
  rw [List.pairwise_append] at hap
  obtain ⟨ap1, -, ap3⟩ := hap
  have md : ∀ s ∈ data, (s.exec, s.len) ∈ data.map (fun s => (s.exec, s.len)) ++ bss :=
    fun s hs => List.mem_append_left _ (List.mem_map.mpr ⟨s, hs, rfl⟩)
  have mb : ∀ b ∈ bss, b ∈ data.map (fun s => (s.exec, s.len)) ++ bss := fun b hb => List.mem_append_right _ hb
  have hw : (word T (3 * data.length)).toNat = T.toNat + 12 * data.length := by rw [word_toNat (by omega)]; omega
  have key : ∀ fuel, 2 ^ 30 + data.length + bss.length < fuel → ∃ m', 
      resetISR T (word T (3 * data.length)) (word T (3 * data.length + 2 * bss.length)) fuel m = some m' ∧
      (∀ s ∈ data, ∀ k, k < words s.len → m' (word s.exec k) = m (word s.load k)) ∧
      (∀ b ∈ bss, ∀ k, k < words b.2 → m' (word b.1 k) = 0#32) ∧
      ∀ a, (∀ t ∈ data.map (fun s => (s.exec, s.len)) ++ bss, ¬ InArea a t.1 t.2) → m' a = m a := by
    intro fuel hf
    obtain ⟨m1, e1, o1, c1⟩ := data_spec fuel (by omega) data m T fuel (by omega) (by omega) hd (fun s hs => hshort _ (md s hs))
      (List.pairwise_map.mp ap1) (fun i hi t ht => htab i (by omega) _ (md t ht)) (fun s hs k hk t ht => hcon s hs k hk _ (md t ht))
    obtain ⟨m2, e2, o2, c2⟩ := bss_spec fuel (by omega) bss m1 (word T (3 * data.length)) fuel (by omega) (by omega)
      (BssTable.frame bss _ (fun i hi => by
        rw [word_word]
        exact o1 _ (fun t ht => htab _ (by omega) _ (md t ht))) hb)
      (fun s hs => hshort _ (mb s hs))
      (fun i hi t ht => by rw [word_word]; exact htab _ (by omega) _ (mb t ht))
    rw [word_word] at e2
    refine ⟨m2, ?_, fun s hs k hk => ?_, c2, fun a ha => ?_⟩
    · unfold resetISR
      rw [e1]
      exact e2
    · rw [o2 _ (fun t ht => ap3 _ (List.mem_map.mpr ⟨s, hs, rfl⟩) t ht _ ⟨k, hk, rfl⟩), c1 s hs k hk]
    · rw [o2 a (fun t ht => ha t (mb t ht)), o1 a (fun t ht => ha _ (md t ht))]
  obtain ⟨m', e, h1, h2, h3⟩ := key (2 ^ 30 + data.length + bss.length + 1) (by omega)
  refine ⟨m', fun fuel hf => ?_, h1, h2, h3⟩
  obtain ⟨m2, e', g1, g2, g3⟩ := key fuel hf
  rw [e']
  congr 1
  funext a
  by_cases q : ∀ t ∈ data.map (fun s => (s.exec, s.len)) ++ bss, ¬ InArea a t.1 t.2
  · rw [g3 a q, h3 a q]
  · obtain ⟨t, q⟩ := Classical.not_forall.mp q
    obtain ⟨ht, q⟩ := Classical.not_imp.mp q
    obtain ⟨k, hk, q⟩ := Classical.not_not.mp q
    subst q
    rcases List.mem_append.mp ht with ht | ht
    · obtain ⟨s, hs, rfl⟩ := List.mem_map.mp ht
      rw [g1 s hs k hk, h1 s hs k hk]
    · rw [g2 t ht k hk, h2 t ht k hk]

/-- **C115 (part).** A section whose length is no multiple of 4 takes the rest of its last word with it: the word is overwritten or cleared as a whole. -/
theorem C115_whole_words (m : Memory) (start len : U32) (h : len.toNat ≤ 2 ^ 32 - 4) (fuel : Nat) (hf : 2 ^ 30 < fuel) :
    bssInit fuel m start len = bssInit fuel m start (BitVec.ofNat 32 (4 * words len)) := by
  have hw : (BitVec.ofNat 32 (4 * words len)).toNat = 4 * words len := by
    rw [BitVec.toNat_ofNat, Nat.mod_eq_of_lt]; unfold words; omega
  have h2 : words (BitVec.ofNat 32 (4 * words len)) = words len := by
    unfold words at *; omega
  obtain ⟨m1, e1, o1, c1⟩ := bssInit_spec (start := start) h fuel m hf
  obtain ⟨m2, e2, o2, c2⟩ := bssInit_spec (start := start) (len := BitVec.ofNat 32 (4 * words len)) (by rw [hw]; unfold words; omega) fuel m hf
  rw [e1, e2]
  congr 1
  funext a
  by_cases q : InArea a start len
  · obtain ⟨k, hk, q⟩ := q
    subst q
    rw [c1 k hk, c2 k (by rw [h2]; exact hk)]
  · rw [o1 a q, o2 a (fun r => q (by obtain ⟨k, hk, r⟩ := r; exact ⟨k, by rw [h2] at hk; exact hk, r⟩))]

/-- **C115 (part, negative).** A section longer than 2³² − 4 bytes is never finished: the counter starts again at 0. -/
theorem C115_endless (m : Memory) (start rom len : U32) (h : 2 ^ 32 - 4 < len.toNat) (fuel : Nat) :
    dataInit fuel m rom start len = none ∧ bssInit fuel m start len = none := by
  have hlt : ∀ c : U32, c.toNat % 4 = 0 → c < len := by
    intro c hc
    rw [BitVec.lt_def]
    have := c.isLt
    omega
  have h4 : ∀ c : U32, c.toNat % 4 = 0 → (c + 4#32).toNat % 4 = 0 := by
    intro c hc
    have : (c + 4#32).toNat = (c.toNat + 4) % 2 ^ 32 := by simp
    omega
  have a : ∀ fuel m (d r c : U32), c.toNat % 4 = 0 → dataLoop len fuel m d r c = none := by
    intro fuel
    induction fuel with
    | zero => intros; rfl
    | succ f ih =>
      intro m d r c hc
      unfold dataLoop
      rw [if_pos (hlt c hc)]
      exact ih _ _ _ _ (h4 c hc)
  have b : ∀ fuel m (d c : U32), c.toNat % 4 = 0 → bssLoop len fuel m d c = none := by
    intro fuel
    induction fuel with
    | zero => intros; rfl
    | succ f ih =>
      intro m d c hc
      unfold bssLoop
      rw [if_pos (hlt c hc)]
      exact ih _ _ _ (h4 c hc)
  exact ⟨a _ _ _ _ _ (by decide), b _ _ _ _ (by decide)⟩

/-! ## Non-vacuity -/

/-- A flash with the table at 0x100: one section of 6 bytes kept at 0x200 that belongs to 0x10000000, and 8 bytes to be cleared from 0x10000008 on; the RAM has
old content. -/
def demoMemory : Memory := fun a =>
  if a = 0x100#32 then 0x200#32 else if a = 0x104#32 then 0x10000000#32 else if a = 0x108#32 then 6#32
  else if a = 0x10C#32 then 0x10000008#32 else if a = 0x110#32 then 8#32
  else if a = 0x200#32 then 0x11223344#32 else if a = 0x204#32 then 0x5566#32
  else 0x5E1FB055#32

/-- Membership, for a concrete area. -/
theorem inArea_two {a start len : U32} (hw : words len = 2) : InArea a start len ↔ a = word start 0 ∨ a = word start 1 := by
  unfold InArea
  rw [hw]
  constructor
  · rintro ⟨k, hk, h⟩
    rcases (show k = 0 ∨ k = 1 by omega) with q | q <;> subst q
    · exact .inl h
    · exact .inr h
  · rintro (h | h)
    · exact ⟨0, by decide, h⟩
    · exact ⟨1, by decide, h⟩

theorem demoLayout : Layout demoMemory 0x100#32 [⟨0x200#32, 0x10000000#32, 6#32⟩] [(0x10000008#32, 8#32)] := by
  have w6 : words 6#32 = 2 := by decide
  have w8 : words 8#32 = 2 := by decide
  have ht : targets [⟨0x200#32, 0x10000000#32, 6#32⟩] [(0x10000008#32, 8#32)] = [(0x10000000#32, 6#32), (0x10000008#32, 8#32)] := rfl
  refine ⟨⟨by decide, by decide, by decide, trivial⟩, ⟨by decide, by decide, trivial⟩, by decide, ?_, ?_, ?_, ?_⟩
  · rw [ht]; decide
  · rw [ht]
    refine List.pairwise_pair.mpr fun a h1 h2 => ?_
    rw [inArea_two w6] at h1
    rw [inArea_two w8] at h2
    rcases h1 with h1 | h1 <;> rw [h1] at h2 <;> rcases h2 with h2 | h2 <;> revert h2 <;> decide
  · rw [ht]
    intro i hi t ht
    have hi : i < 5 := hi
    rcases List.mem_cons.mp ht with h | h
    · subst h
      rw [inArea_two w6]
      rcases (show i = 0 ∨ i = 1 ∨ i = 2 ∨ i = 3 ∨ i = 4 by omega) with q | q | q | q | q <;> subst q <;> decide
    · rw [List.mem_singleton] at h
      subst h
      rw [inArea_two w8]
      rcases (show i = 0 ∨ i = 1 ∨ i = 2 ∨ i = 3 ∨ i = 4 by omega) with q | q | q | q | q <;> subst q <;> decide
  · rw [ht]
    intro s hs k hk t ht
    rw [List.mem_singleton] at hs
    subst hs
    rw [show words (Section.mk 0x200#32 0x10000000#32 6#32).len = 2 from w6] at hk
    rcases List.mem_cons.mp ht with h | h
    · subst h
      rw [inArea_two w6]
      rcases (show k = 0 ∨ k = 1 by omega) with q | q <;> subst q <;> decide
    · rw [List.mem_singleton] at h
      subst h
      rw [inArea_two w8]
      rcases (show k = 0 ∨ k = 1 by omega) with q | q <;> subst q <;> decide

/-- The sections get their content, the second one is cleared, and the word behind them keeps what a program left there before the restart. -/
example : ∃ m', resetISR 0x100#32 0x10C#32 0x114#32 (2 ^ 30 + 3) demoMemory = some m' ∧ m' 0x10000000#32 = 0x11223344#32 ∧ m' 0x10000004#32 = 0x5566#32 ∧
    m' 0x10000008#32 = 0#32 ∧ m' 0x1000000C#32 = 0#32 ∧ m' 0x10000010#32 = 0x5E1FB055#32 := by
  obtain ⟨m', e, h1, h2, h3⟩ := C115_startup _ _ _ _ demoLayout
  have w6 : words 6#32 = 2 := by decide
  have w8 : words 8#32 = 2 := by decide
  refine ⟨m', e _ (by decide), ?_, ?_, h2 _ List.mem_cons_self 0 (by decide), h2 _ List.mem_cons_self 1 (by decide), ?_⟩
  · exact (h1 _ List.mem_cons_self 0 (by decide)).trans (by decide)
  · exact (h1 _ List.mem_cons_self 1 (by decide)).trans (by decide)
  · refine (h3 _ ?_).trans (by decide)
    intro t ht
    rcases List.mem_cons.mp (show t ∈ [(0x10000000#32, 6#32), (0x10000008#32, 8#32)] from ht) with h | h
    · subst h; rw [inArea_two w6]; decide
    · rw [List.mem_singleton] at h
      subst h; rw [inArea_two w8]; decide

end Verif.Boot.Startup
