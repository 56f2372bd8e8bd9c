import Verif.Boot.HexSpec

/-!
# Lemmas about Intel HEX files
-/

namespace Verif.Boot.Hex
open Verif Verif.Boot.HexSpec

/-! ## One line -/

theorem digit_ge {c d : Nat} (h : digit c = some d) : 48 ≤ c ∧ c < 128 := by
  unfold digit at h
  split at h
  · omega
  · split at h
    · omega
    · split at h
      · omega
      · cases h

theorem hexBytes_writes {dig : Nat → Option Nat} (hd : Java dig) {cs : List Nat} {bs : List Byte} (h : Writes cs bs) :
    hexBytes dig cs = some bs := by
  induction h with
  | nil => rfl
  | @cons a b x y cs bs ha hb h ih =>
    have h1 := digit_ge ha
    have h2 := digit_ge hb
    have ea : dig a = some x := (hd.ascii a h1.2).trans ha
    have eb : dig b = some y := (hd.ascii b h2.2).trans hb
    unfold hexBytes
    rw [ih]
    have : parseInt2 dig a b = some (BitVec.ofNat 8 (16 * x + y)) := by
      unfold parseInt2
      rw [if_neg (by omega), ea, eb]
    rw [this]

theorem foldl_sum (l : List Byte) (x : Byte) : (l.foldl (· + ·) x).toNat = (x.toNat + (l.map BitVec.toNat).sum) % 256 := by
  induction l generalizing x with
  | nil => simp only [List.foldl_nil, List.map_nil, List.sum_nil, Nat.add_zero]; exact (Nat.mod_eq_of_lt x.isLt).symm
  | cons y l ih =>
    rw [List.foldl_cons, ih, BitVec.toNat_add, List.map_cons, List.sum_cons]
    omega

theorem sum_append (a b : List Nat) : (a ++ b).sum = a.sum + b.sum := by simp

theorem octets_sum (r : Rec) : (r.octets.map BitVec.toNat).sum % 256 = 0 := by
  unfold Rec.octets
  rw [List.map_append, sum_append, List.map_cons, List.map_nil, List.sum_cons, List.sum_nil, BitVec.toNat_neg, foldl_sum]
  simp only [BitVec.toNat_ofNat]
  omega

/-- The record the parser makes. -/
def Rec.type : Rec → RecordType
  | .data .. => .data
  | .eof => .eof
  | .segment .. => .extSeg
  | .startSegment .. => .startSeg
  | .linear .. => .extLin
  | .startLinear .. => .startLin

def asRecord (r : Rec) : Record := ⟨r.fields.2.1.toNat, Rec.type r, r.fields.2.2⟩

theorem fields_length (r : Rec) (h : r.Short) : r.fields.2.2.length ≤ 255 := by
  cases r <;> simp [Rec.fields]
  exact h

theorem hi_lo (w : BitVec 16) : (hi w).toNat * 256 + (lo w).toNat = w.toNat := by
  unfold hi lo
  rw [BitVec.extractLsb'_toNat, BitVec.extractLsb'_toNat, Nat.shiftRight_zero, Nat.shiftRight_eq_div_pow]
  have := w.isLt
  omega

theorem fromInt_type (r : Rec) : RecordType.fromInt r.fields.1.toNat = some (Rec.type r) := by cases r <;> rfl

theorem parseRecord_line {dig : Nat → Option Nat} (hd : Java dig) {l : List Nat} {r : Rec} (hs : r.Short) (hl : Line l r) :
    parseRecord dig false l = some (asRecord r) := by
  obtain ⟨cs, rfl, hw⟩ := hl
  have h1 := hexBytes_writes hd hw
  have hlen := fields_length r hs
  unfold parseRecord
  rw [if_neg (by decide)]
  dsimp only
  rw [if_neg (by decide), h1]
  dsimp only
  rw [if_neg (by rw [octets_sum]; decide)]
  have e0 : r.octets.getD 0 0#8 = BitVec.ofNat 8 r.fields.2.2.length := rfl
  have e1 : r.octets.getD 1 0#8 = hi r.fields.2.1 := rfl
  have e2 : r.octets.getD 2 0#8 = lo r.fields.2.1 := rfl
  have e3 : r.octets.getD 3 0#8 = r.fields.1 := rfl
  have e4 : r.octets.drop 4 = r.fields.2.2 ++ [-(r.body.foldl (· + ·) 0#8)] := rfl
  have en : (BitVec.ofNat 8 r.fields.2.2.length).toNat = r.fields.2.2.length := by
    rw [BitVec.toNat_ofNat]; omega
  have el : r.octets.length = r.fields.2.2.length + 5 := by
    unfold Rec.octets Rec.body
    simp
  rw [e0, e1, e2, e3, e4, en, el, if_neg (by simp), fromInt_type, hi_lo, List.take_append_of_le_length (Nat.le_refl _), List.take_length]
  rfl

/-! ## The events -/

/-- The calls of `data` for records, from an upper address on. -/
def evs : Nat → List Rec → List (Nat × List Byte)
  | _, [] => []
  | u, .data o bs :: rs => (o.toNat ||| u, bs) :: evs u rs
  | _, .linear w :: rs => evs (w.toNat <<< 16) rs
  | _, .segment w :: rs => evs (w.toNat <<< 4) rs
  | u, .eof :: rs => evs u rs
  | u, .startSegment .. :: rs => evs u rs
  | u, .startLinear .. :: rs => evs u rs

theorem parseLoop_blank {dig : Nat → Option Nat} {ls : List (List Nat)} {rs : List Rec} (h : Lines ls rs) (he : rs = []) (s : St) :
    parseLoop dig ls s = some s := by
  induction h with
  | nil => rfl
  | empty h ih => exact ih he
  | cons hl h ih => cases he

theorem parseLoop_lines {dig : Nat → Option Nat} (hd : Java dig) {ls : List (List Nat)} {rs' : List Rec} (h : Lines ls rs') :
    ∀ (rs : List Rec), rs' = rs ++ [.eof] → (∀ r ∈ rs, r ≠ .eof) → (∀ r ∈ rs, r.Short) → ∀ (u : Nat) (ev : List (Nat × List Byte)),
    ∃ u', parseLoop dig ls ⟨false, u, ev⟩ = some ⟨true, u', ev ++ evs u rs⟩ := by
  induction h with
  | nil => intro rs h; simp at h
  | empty h ih => exact ih
  | @cons l r ls rs' hl h ih =>
    intro rs hr hne hsh u ev
    have hemp : l.isEmpty = false := by
      obtain ⟨cs, rfl, -⟩ := hl; rfl
    unfold parseLoop
    rw [if_neg (by rw [hemp]; decide)]
    cases rs with
    | nil =>
      rw [List.nil_append, List.cons.injEq] at hr
      obtain ⟨rfl, rfl⟩ := hr
      rw [parseRecord_line hd (r := .eof) trivial hl]
      refine ⟨u, ?_⟩
      show parseLoop dig ls ⟨true, u, ev⟩ = _
      rw [parseLoop_blank h rfl]
      simp [evs]
    | cons r0 rs =>
      rw [List.cons_append, List.cons.injEq] at hr
      obtain ⟨rfl, rfl⟩ := hr
      have hs0 := hsh r List.mem_cons_self
      have hn0 := hne r List.mem_cons_self
      have hne' : ∀ q ∈ rs, q ≠ .eof := fun q hq => hne q (List.mem_cons_of_mem _ hq)
      have hsh' : ∀ q ∈ rs, q.Short := fun q hq => hsh q (List.mem_cons_of_mem _ hq)
      have ih' := ih rs rfl hne' hsh'
      rw [parseRecord_line hd hs0 hl]
      cases r with
      | data o bs =>
        obtain ⟨u', e⟩ := ih' u (ev ++ [(o.toNat ||| u, bs)])
        refine ⟨u', ?_⟩
        show parseLoop dig ls ⟨false, u, ev ++ [(o.toNat ||| u, bs)]⟩ = _
        rw [e]
        simp [evs]
      | eof => exact absurd rfl hn0
      | segment w =>
        obtain ⟨u', e⟩ := ih' (w.toNat <<< 4) ev
        refine ⟨u', ?_⟩
        show parseLoop dig ls ⟨false, ((hi w).toNat * 256 + (lo w).toNat) <<< 4, ev⟩ = _
        rw [hi_lo]
        exact e
      | linear w =>
        obtain ⟨u', e⟩ := ih' (w.toNat <<< 16) ev
        refine ⟨u', ?_⟩
        show parseLoop dig ls ⟨false, ((hi w).toNat * 256 + (lo w).toNat) <<< 16, ev⟩ = _
        rw [hi_lo]
        exact e
      | startSegment cs ip => exact ih' u ev
      | startLinear e => exact ih' u ev

theorem parse_lines {dig : Nat → Option Nat} (hd : Java dig) {ls : List (List Nat)} {rs : List Rec} (h : Lines ls (rs ++ [.eof]))
    (hne : ∀ r ∈ rs, r ≠ .eof) (hsh : ∀ r ∈ rs, r.Short) : parse dig ls = some (evs 0 rs) := by
  obtain ⟨u, e⟩ := parseLoop_lines hd h rs rfl hne hsh 0 []
  unfold parse
  rw [e]
  rfl

/-- Single bytes of events. -/
def flat (es : List (Nat × List Byte)) : List (Nat × Byte) := es.flatMap fun e => e.2.mapIdx fun i v => (e.1 + i, v)

def upper : Base → Nat
  | .linear b => b <<< 16
  | .segment b => b <<< 4

theorem mapIdx_congr {α β : Type} (l : List α) (f g : Nat → α → β) (h : ∀ i, i < l.length → ∀ v, f i v = g i v) : l.mapIdx f = l.mapIdx g := by
  apply List.ext_getElem?
  intro i
  rw [List.getElem?_mapIdx, List.getElem?_mapIdx]
  by_cases hi : i < l.length
  · rw [List.getElem?_eq_getElem hi]
    simp only [Option.map_some, h i hi]
  · rw [List.getElem?_eq_none (by omega)]
    rfl

theorem or_shift (o b : Nat) (h : o < 65536) : o ||| b <<< 16 = b * 65536 + o := by
  rw [Nat.or_comm, ← Nat.shiftLeft_add_eq_or_of_lt (by exact h) b, Nat.shiftLeft_eq]

theorem or_disjoint (a b : Nat) (h : a &&& b = 0) : a ||| b = a + b := by
  have key : ∀ n a b : Nat, a < 2 ^ n → a &&& b = 0 → a ||| b = a + b := by
    intro n
    induction n with
    | zero => intro a b ha _; have : a = 0 := by omega
              subst this; simp
    | succ n ih =>
      intro a b ha hab
      have h1 : a / 2 &&& b / 2 = 0 := by rw [← Nat.and_div_two_pow (n := 1), hab]
      have h2 : a % 2 &&& b % 2 = 0 := by
        have : (a &&& b) % 2 = 0 := by rw [hab]
        rw [Nat.and_mod_two_pow (n := 1)] at this
        exact this
      have e1 : (a ||| b) / 2 = a / 2 + b / 2 := by
        rw [← ih (a / 2) (b / 2) (by rw [Nat.pow_succ] at ha; omega) h1]
        exact Nat.or_div_two_pow (n := 1)
      have e2 : (a ||| b) % 2 = a % 2 + b % 2 := by
        have : (a ||| b) % 2 = a % 2 ||| b % 2 := Nat.or_mod_two_pow (n := 1)
        rw [this]
        rcases Nat.mod_two_eq_zero_or_one a with p | p <;> rcases Nat.mod_two_eq_zero_or_one b with q | q <;> rw [p, q] at h2 ⊢ <;> first | rfl | simp at h2
      omega
  exact key a a b Nat.lt_two_pow_self h

theorem placed_flat : ∀ (rs : List Rec) (b : Base), Plain b rs → placed b rs = flat (evs (upper b) rs)
  | [], _, _ => rfl
  | .data o bs :: rs, b, h => by
    obtain ⟨_, h2, h3⟩ := h
    have ih := placed_flat rs b h3
    unfold placed evs flat
    rw [List.flatMap_cons, ih]
    congr 1
    refine mapIdx_congr _ _ _ fun i hi v => ?_
    have ho := o.isLt
    cases b with
    | linear b =>
      dsimp only at h2 ⊢
      unfold Base.address upper
      dsimp only
      rw [or_shift _ _ ho, Nat.mod_eq_of_lt (by omega)]
    | segment b =>
      dsimp only at h2 ⊢
      unfold Base.address upper
      dsimp only
      have e : b <<< 4 = b * 16 := by rw [Nat.shiftLeft_eq]
      rw [e, or_disjoint _ _ h2.2, Nat.mod_eq_of_lt (by omega)]
      congr 1
      omega
  | .linear w :: rs, b, h => placed_flat rs (.linear w.toNat) h
  | .segment w :: rs, b, h => placed_flat rs (.segment w.toNat) h
  | .eof :: rs, b, h => placed_flat rs b h
  | .startSegment .. :: rs, b, h => placed_flat rs b h
  | .startLinear .. :: rs, b, h => placed_flat rs b h

theorem evs_nonempty : ∀ (rs : List Rec) (b : Base) (u : Nat), Plain b rs → ∀ e ∈ evs u rs, e.2 ≠ []
  | [], _, _, _ => by intro e he; cases he
  | .data o bs :: rs, b, u, h => by
    intro e he
    rcases List.mem_cons.1 he with rfl | he
    · exact h.1
    · exact evs_nonempty rs b u h.2.2 e he
  | .linear w :: rs, b, u, h => evs_nonempty rs _ _ h
  | .segment w :: rs, b, u, h => evs_nonempty rs _ _ h
  | .eof :: rs, b, u, h => evs_nonempty rs _ _ h
  | .startSegment .. :: rs, b, u, h => evs_nonempty rs _ _ h
  | .startLinear .. :: rs, b, u, h => evs_nonempty rs _ _ h

/-! ## The range -/

def Region.has (r : Region) (a : Nat) : Prop := r.start ≤ a ∧ a < r.start + r.length

def covers (rs : List Region) (a : Nat) : Prop := ∃ r ∈ rs, r.has a

theorem getLast?_split {α : Type} (l : List α) (x : α) (h : l.getLast? = some x) : l = l.dropLast ++ [x] := by
  have hne : l ≠ [] := by intro e; subst e; cases h
  have := List.dropLast_concat_getLast hne
  rw [List.getLast?_eq_some_getLast hne, Option.some.injEq] at h
  rw [h] at this
  exact this.symm

theorem covers_add (rs : List Region) (s l a : Nat) : covers (addRegion rs s l) a ↔ covers rs a ∨ (s ≤ a ∧ a < s + l) := by
  unfold addRegion
  cases hl : rs.getLast? with
  | none =>
    dsimp only
    unfold covers
    simp only [List.mem_append, List.mem_singleton, or_and_right, exists_or, exists_eq_left]
    rfl
  | some p =>
    dsimp only
    by_cases q : p.start + p.length = s
    · rw [if_pos q]
      have e := getLast?_split rs p hl
      have h1 : covers rs a ↔ covers (rs.dropLast ++ [p]) a := by rw [← e]
      rw [h1]
      unfold covers
      simp only [List.mem_append, List.mem_singleton, or_and_right, exists_or, exists_eq_left]
      rw [or_assoc]
      refine or_congr Iff.rfl ?_
      unfold Region.has
      dsimp only
      omega
    · rw [if_neg q]
      unfold covers
      simp only [List.mem_append, List.mem_singleton, or_and_right, exists_or, exists_eq_left]
      rfl

theorem pos_add (rs : List Region) (s l : Nat) (hl : 0 < l) (h : ∀ r ∈ rs, 0 < r.length) : ∀ r ∈ addRegion rs s l, 0 < r.length := by
  unfold addRegion
  intro r hr
  cases e : rs.getLast? with
  | none =>
    rw [e] at hr
    rcases List.mem_append.1 hr with hr | hr
    · exact h r hr
    · rw [List.mem_singleton.1 hr]; exact hl
  | some p =>
    rw [e] at hr
    dsimp only at hr
    split at hr
    · rcases List.mem_append.1 hr with hr | hr
      · exact h r (List.dropLast_subset _ hr)
      · rw [List.mem_singleton.1 hr]; show 0 < p.length + l; omega
    · rcases List.mem_append.1 hr with hr | hr
      · exact h r hr
      · rw [List.mem_singleton.1 hr]; exact hl

/-- Two regions have no address in common. -/
def Apart (r r' : Region) : Prop := r.start + r.length ≤ r'.start ∨ r'.start + r'.length ≤ r.start

theorem apart_of (r : Region) (hr : 0 < r.length) (s l : Nat) (hl : 0 < l) (h : ∀ a, r.has a → ¬(s ≤ a ∧ a < s + l)) : Apart r ⟨s, l⟩ := by
  unfold Apart
  refine Decidable.byContradiction fun q => ?_
  dsimp only at q
  by_cases g : r.start ≤ s
  · exact h s ⟨g, by omega⟩ ⟨Nat.le_refl _, by omega⟩
  · exact h r.start ⟨Nat.le_refl _, by omega⟩ ⟨by omega, by omega⟩

theorem apart_add (rs : List Region) (s l : Nat) (hl : 0 < l) (hp : ∀ r ∈ rs, 0 < r.length) (hd : rs.Pairwise Apart)
    (h : ∀ a, covers rs a → ¬(s ≤ a ∧ a < s + l)) : (addRegion rs s l).Pairwise Apart := by
  have hx : ∀ r ∈ rs, Apart r ⟨s, l⟩ := fun r hr => apart_of r (hp r hr) s l hl fun a ha => h a ⟨r, hr, ha⟩
  have happ : (rs ++ [(⟨s, l⟩ : Region)]).Pairwise Apart := by
    refine List.pairwise_append.2 ⟨hd, List.pairwise_singleton _ _, fun a ha b hb => ?_⟩
    rw [List.mem_singleton.1 hb]
    exact hx a ha
  unfold addRegion
  cases e : rs.getLast? with
  | none => exact happ
  | some p =>
    dsimp only
    by_cases q : p.start + p.length = s
    · rw [if_pos q]
      have es := getLast?_split rs p e
      rw [es] at hd
      obtain ⟨h1, -, h3⟩ := List.pairwise_append.1 hd
      refine List.pairwise_append.2 ⟨h1, List.pairwise_singleton _ _, fun a ha b hb => ?_⟩
      rw [List.mem_singleton.1 hb]
      have g1 := h3 a ha p (List.mem_singleton.2 rfl)
      have g2 := hx a (List.dropLast_subset _ ha)
      have g3 := hp a (List.dropLast_subset _ ha)
      unfold Apart at g1 g2 ⊢
      dsimp only at g1 g2 ⊢
      omega
    · rw [if_neg q]; exact happ

theorem mem_insert (r x : Region) : ∀ l : List Region, x ∈ insertRegion r l ↔ x = r ∨ x ∈ l
  | [] => by simp [insertRegion]
  | y :: l => by
    unfold insertRegion
    split
    · simp
    · rw [List.mem_cons, mem_insert r x l, List.mem_cons]
      constructor
      · rintro (h | h | h)
        · exact Or.inr (Or.inl h)
        · exact Or.inl h
        · exact Or.inr (Or.inr h)
      · rintro (h | h | h)
        · exact Or.inr (Or.inl h)
        · exact Or.inl h
        · exact Or.inr (Or.inr h)

theorem mem_sort (x : Region) : ∀ l : List Region, x ∈ sortRegions l ↔ x ∈ l
  | [] => Iff.rfl
  | y :: l => by
    show x ∈ insertRegion y (sortRegions l) ↔ _
    rw [mem_insert, mem_sort x l, List.mem_cons]

theorem pairwise_insert (R : Region → Region → Prop) (hs : ∀ a b, R a b → R b a) (r : Region) :
    ∀ l : List Region, l.Pairwise R → (∀ x ∈ l, R r x) → (insertRegion r l).Pairwise R
  | [], _, _ => List.pairwise_singleton _ _
  | y :: l, h, hr => by
    unfold insertRegion
    split
    · exact List.pairwise_cons.2 ⟨hr, h⟩
    · obtain ⟨h1, h2⟩ := List.pairwise_cons.1 h
      refine List.pairwise_cons.2 ⟨fun x hx => ?_, pairwise_insert R hs r l h2 fun x hx => hr x (List.mem_cons_of_mem _ hx)⟩
      rcases (mem_insert r x l).1 hx with rfl | hx
      · exact hs _ _ (hr y List.mem_cons_self)
      · exact h1 x hx

theorem apart_sort : ∀ l : List Region, l.Pairwise Apart → (sortRegions l).Pairwise Apart
  | [], h => h
  | y :: l, h => by
    obtain ⟨h1, h2⟩ := List.pairwise_cons.1 h
    exact pairwise_insert Apart (fun a b g => g.symm) y _ (apart_sort l h2) fun x hx => h1 x ((mem_sort x l).1 hx)

theorem le_start {a b : Region} (h : a.le b = true) : a.start ≤ b.start := by
  unfold Region.le at h
  split at h
  · omega
  · have := of_decide_eq_true h; omega

theorem le_start' {a b : Region} (h : ¬a.le b = true) : b.start ≤ a.start := by
  unfold Region.le at h
  split at h
  · omega
  · have : ¬a.start < b.start := fun g => h (decide_eq_true g)
    omega

theorem sorted_insert (r : Region) : ∀ l : List Region, l.Pairwise (fun a b => a.start ≤ b.start) →
    (insertRegion r l).Pairwise (fun a b => a.start ≤ b.start)
  | [], _ => List.pairwise_singleton _ _
  | y :: l, h => by
    obtain ⟨h1, h2⟩ := List.pairwise_cons.1 h
    unfold insertRegion
    by_cases q : r.le y = true
    · rw [if_pos q]
      refine List.pairwise_cons.2 ⟨fun x hx => ?_, h⟩
      have := le_start q
      rcases List.mem_cons.1 hx with rfl | hx
      · exact this
      · have := h1 x hx; omega
    · rw [if_neg q]
      refine List.pairwise_cons.2 ⟨fun x hx => ?_, sorted_insert r l h2⟩
      rcases (mem_insert r x l).1 hx with rfl | hx
      · exact le_start' q
      · exact h1 x hx

theorem sorted_sort : ∀ l : List Region, (sortRegions l).Pairwise (fun a b => a.start ≤ b.start)
  | [] => List.Pairwise.nil
  | y :: l => sorted_insert y _ (sorted_sort l)

/-- One after the other. -/
def Before (r r' : Region) : Prop := r.start + r.length ≤ r'.start

theorem before_sort (l : List Region) (hp : ∀ r ∈ l, 0 < r.length) (h : l.Pairwise Apart) : (sortRegions l).Pairwise Before := by
  have h1 := (apart_sort l h).and (sorted_sort l)
  refine h1.imp_of_mem fun {a b} ha hb hab => ?_
  have g1 := hp a ((mem_sort a l).1 ha)
  have g2 := hp b ((mem_sort b l).1 hb)
  obtain ⟨h3, h4⟩ := hab
  unfold Apart at h3
  unfold Before
  omega

theorem covers_sort (l : List Region) (a : Nat) : covers (sortRegions l) a ↔ covers l a := by
  constructor
  · rintro ⟨r, hr, ha⟩; exact ⟨r, (mem_sort r l).1 hr, ha⟩
  · rintro ⟨r, hr, ha⟩; exact ⟨r, (mem_sort r l).2 hr, ha⟩

theorem chain_ne (p : Region) (l : List Region) : chain p l ≠ [] := by
  induction l generalizing p with
  | nil => exact fun h => by cases h
  | cons c l ih =>
    unfold chain
    split
    · exact ih _
    · exact fun h => by cases h

theorem chain_head (p : Region) (l : List Region) : ∃ n, (chain p l).head? = some ⟨p.start, n⟩ := by
  induction l generalizing p with
  | nil => exact ⟨p.length, rfl⟩
  | cons c l ih =>
    unfold chain
    split
    · exact ih _
    · exact ⟨p.length, rfl⟩

theorem covers_cons (r : Region) (l : List Region) (a : Nat) : covers (r :: l) a ↔ r.has a ∨ covers l a := by
  unfold covers
  simp only [List.mem_cons, or_and_right, exists_or, exists_eq_left]

theorem covers_chain (p : Region) (l : List Region) (a : Nat) : covers (chain p l) a ↔ covers (p :: l) a := by
  induction l generalizing p with
  | nil => exact Iff.rfl
  | cons c l ih =>
    unfold chain
    split
    · rename_i q
      rw [ih, covers_cons, covers_cons, covers_cons, ← or_assoc]
      refine or_congr ?_ Iff.rfl
      unfold Region.has
      dsimp only
      omega
    · rw [covers_cons, ih, covers_cons p (c :: l)]

theorem chain_pos (p : Region) (l : List Region) (h : ∀ r ∈ p :: l, 0 < r.length) : ∀ r ∈ chain p l, 0 < r.length := by
  induction l generalizing p with
  | nil => exact h
  | cons c l ih =>
    have h1 := h p List.mem_cons_self
    have h2 : ∀ r ∈ l, 0 < r.length := fun r hr => h r (List.mem_cons_of_mem _ (List.mem_cons_of_mem _ hr))
    unfold chain
    split
    · refine ih _ fun r hr => ?_
      rcases List.mem_cons.1 hr with rfl | hr
      · show 0 < p.length + c.length; omega
      · exact h2 r hr
    · intro r hr
      rcases List.mem_cons.1 hr with rfl | hr
      · exact h1
      · exact ih c (fun r hr => h r (List.mem_cons_of_mem _ hr)) r hr

theorem chain_start (p : Region) (l : List Region) (n : Nat) (h : ∀ r ∈ p :: l, n ≤ r.start) : ∀ r ∈ chain p l, n ≤ r.start := by
  induction l generalizing p with
  | nil => exact h
  | cons c l ih =>
    have h1 := h p List.mem_cons_self
    unfold chain
    split
    · refine ih _ fun r hr => ?_
      rcases List.mem_cons.1 hr with rfl | hr
      · exact h1
      · exact h r (List.mem_cons_of_mem _ (List.mem_cons_of_mem _ hr))
    · intro r hr
      rcases List.mem_cons.1 hr with rfl | hr
      · exact h1
      · exact ih c (fun r hr => h r (List.mem_cons_of_mem _ hr)) r hr

theorem before_chain (p : Region) (l : List Region) (hp : ∀ r ∈ p :: l, 0 < r.length) (h : (p :: l).Pairwise Before) :
    (chain p l).Pairwise Before := by
  induction l generalizing p with
  | nil => exact h
  | cons c l ih =>
    obtain ⟨h1, h2⟩ := List.pairwise_cons.1 h
    obtain ⟨h3, h4⟩ := List.pairwise_cons.1 h2
    unfold chain
    split
    · rename_i q
      refine ih _ (fun r hr => ?_) (List.pairwise_cons.2 ⟨fun x hx => ?_, h4⟩)
      · rcases List.mem_cons.1 hr with rfl | hr
        · have := hp p List.mem_cons_self; show 0 < p.length + c.length; omega
        · exact hp r (List.mem_cons_of_mem _ (List.mem_cons_of_mem _ hr))
      · have := h3 x hx
        unfold Before at this ⊢
        dsimp only
        omega
    · refine List.pairwise_cons.2 ⟨fun x hx => ?_, ih c (fun r hr => hp r (List.mem_cons_of_mem _ hr)) h2⟩
      have hc := h1 c List.mem_cons_self
      have : c.start ≤ x.start := chain_start c l c.start (fun r hr => by
        rcases List.mem_cons.1 hr with rfl | hr
        · exact Nat.le_refl _
        · have := h3 r hr; unfold Before at this; omega) x hx
      unfold Before at hc ⊢
      omega

/-- What the first pass knows after some events. -/
structure Seen (rs : List Region) (S : Nat → Prop) : Prop where
  cov : ∀ a, covers rs a ↔ S a
  pos : ∀ r ∈ rs, 0 < r.length

theorem compact_ne {rs : List Region} (h : rs ≠ []) : ∃ p l, sortRegions rs = p :: l ∧ compact rs = chain p l := by
  cases e : sortRegions rs with
  | nil =>
    obtain ⟨r, hr⟩ := List.exists_mem_of_ne_nil rs h
    have := (mem_sort r rs).2 hr
    rw [e] at this
    cases this
  | cons p l =>
    refine ⟨p, l, rfl, ?_⟩
    unfold compact
    rw [e]

/-- The start of the full range is the least address. -/
theorem range_start {rs : List Region} {S : Nat → Prop} (h : Seen rs S) (hne : rs ≠ []) :
    let out := fullRange (compact rs)
    S out.start ∧ ∀ a, S a → out.start ≤ a := by
  obtain ⟨p, l, e1, e2⟩ := compact_ne hne
  obtain ⟨n, hh⟩ := chain_head p l
  have es : (fullRange (compact rs)).start = p.start := by
    rw [e2]
    unfold fullRange
    rw [hh]
    cases e : (chain p l).getLast? with
    | none => rw [List.getLast?_eq_none_iff] at e; exact absurd e (chain_ne p l)
    | some q => rfl
  have hp : p ∈ rs := (mem_sort p rs).1 (by rw [e1]; exact List.mem_cons_self)
  dsimp only
  rw [es]
  refine ⟨(h.cov _).1 ⟨p, hp, Nat.le_refl _, by have := h.pos p hp; omega⟩, fun a ha => ?_⟩
  obtain ⟨r, hr, g1, -⟩ := (h.cov a).2 ha
  have hs := sorted_sort rs
  rw [e1] at hs
  have hr' := (mem_sort r rs).2 hr
  rw [e1] at hr'
  rcases List.mem_cons.1 hr' with rfl | hr'
  · exact g1
  · have := (List.pairwise_cons.1 hs).1 r hr'; omega

/-- If no byte is given twice, the end of the full range is the greatest address. -/
theorem range_end {rs : List Region} {S : Nat → Prop} (h : Seen rs S) (hne : rs ≠ []) (ha : rs.Pairwise Apart) :
    let out := fullRange (compact rs)
    0 < out.length ∧ S (out.start + out.length - 1) ∧ ∀ a, S a → a < out.start + out.length := by
  obtain ⟨p, l, e1, e2⟩ := compact_ne hne
  obtain ⟨n, hh⟩ := chain_head p l
  have hb := before_sort rs h.pos ha
  have hpos : ∀ r ∈ p :: l, 0 < r.length := by
    intro r hr
    rw [← e1] at hr
    exact h.pos r ((mem_sort r rs).1 hr)
  rw [e1] at hb
  have hb' := before_chain p l hpos hb
  have hpos' := chain_pos p l hpos
  have hcov : ∀ a, covers (chain p l) a ↔ S a := fun a => by
    rw [covers_chain, ← e1, covers_sort]; exact h.cov a
  obtain ⟨q, hq⟩ : ∃ q, (chain p l).getLast? = some q := by
    cases e : (chain p l).getLast? with
    | none => rw [List.getLast?_eq_none_iff] at e; exact absurd e (chain_ne p l)
    | some q => exact ⟨q, rfl⟩
  have hqm : q ∈ chain p l := List.mem_of_getLast? hq
  have es : fullRange (compact rs) = ⟨p.start, q.start + q.length - p.start⟩ := by
    rw [e2]
    unfold fullRange
    rw [hh, hq]
  have hmax : ∀ r ∈ chain p l, r.start + r.length ≤ q.start + q.length := by
    intro r hr
    rw [getLast?_split _ q hq] at hr hb'
    rcases List.mem_append.1 hr with hr | hr
    · have := (List.pairwise_append.1 hb').2.2 r hr q (List.mem_singleton.2 rfl)
      unfold Before at this
      omega
    · rw [List.mem_singleton.1 hr]; exact Nat.le_refl _
  have hqpos := hpos' q hqm
  have hge : p.start ≤ q.start := chain_start p l p.start (fun r hr => by
    rcases List.mem_cons.1 hr with rfl | hr
    · exact Nat.le_refl _
    · have := (List.pairwise_cons.1 hb).1 r hr; unfold Before at this; omega) q hqm
  dsimp only
  rw [es]
  dsimp only
  refine ⟨by omega, ?_, fun a hs => ?_⟩
  · refine (hcov _).1 ⟨q, hqm, ?_⟩
    unfold Region.has
    omega
  · obtain ⟨r, hr, -, g2⟩ := (hcov a).2 hs
    have := hmax r hr
    omega

def regionsOf (es : List (Nat × List Byte)) (rs : List Region) : List Region := es.foldl (fun rs e => addRegion rs e.1 e.2.length) rs

theorem mem_flat (es : List (Nat × List Byte)) (a : Nat) :
    (∃ v, (a, v) ∈ flat es) ↔ ∃ e ∈ es, e.1 ≤ a ∧ a < e.1 + e.2.length := by
  unfold flat
  simp only [List.mem_flatMap, List.mem_mapIdx, Prod.mk.injEq]
  constructor
  · rintro ⟨v, e, he, i, hi, h1, h2⟩
    exact ⟨e, he, by omega, by omega⟩
  · rintro ⟨e, he, h1, h2⟩
    exact ⟨e.2[a - e.1]'(by omega), e, he, a - e.1, by omega, by omega, rfl⟩

theorem seen_events (es : List (Nat × List Byte)) (hes : ∀ e ∈ es, e.2 ≠ []) (rs : List Region) (S : Nat → Prop) (h : Seen rs S) :
    Seen (regionsOf es rs) (fun a => S a ∨ ∃ v, (a, v) ∈ flat es) := by
  induction es generalizing rs S with
  | nil => exact ⟨fun a => by rw [show regionsOf [] rs = rs from rfl, h.cov]; simp [flat], h.pos⟩
  | cons e es ih =>
    have hp : 0 < e.2.length := List.length_pos_iff.mpr (hes e List.mem_cons_self)
    have := ih (fun x hx => hes x (List.mem_cons_of_mem _ hx)) (addRegion rs e.1 e.2.length) (fun a => S a ∨ (e.1 ≤ a ∧ a < e.1 + e.2.length))
      ⟨fun a => by rw [covers_add, h.cov], pos_add rs _ _ hp h.pos⟩
    refine ⟨fun a => ?_, this.pos⟩
    rw [show regionsOf (e :: es) rs = regionsOf es (addRegion rs e.1 e.2.length) from rfl, this.cov, mem_flat, mem_flat, or_assoc]
    simp only [List.mem_cons, or_and_right, exists_or, exists_eq_left]

theorem apart_events (es : List (Nat × List Byte)) (hes : ∀ e ∈ es, e.2 ≠ []) (rs : List Region) (S : Nat → Prop) (h : Seen rs S)
    (hd : rs.Pairwise Apart) (hn : ((flat es).map (·.1)).Nodup) (hS : ∀ a, S a → ¬∃ v, (a, v) ∈ flat es) :
    (regionsOf es rs).Pairwise Apart := by
  induction es generalizing rs S with
  | nil => exact hd
  | cons e es ih =>
    have hp : 0 < e.2.length := List.length_pos_iff.mpr (hes e List.mem_cons_self)
    have hfl : flat (e :: es) = (e.2.mapIdx fun i v => (e.1 + i, v)) ++ flat es := rfl
    rw [hfl, List.map_append, List.nodup_append] at hn
    obtain ⟨-, hn2, hn3⟩ := hn
    have hin : ∀ a, e.1 ≤ a ∧ a < e.1 + e.2.length → a ∈ (e.2.mapIdx fun i v => (e.1 + i, v)).map (·.1) := by
      intro a ha
      rw [List.mem_map]
      refine ⟨(a, e.2[a - e.1]'(by omega)), ?_, rfl⟩
      rw [List.mem_mapIdx]
      exact ⟨a - e.1, by omega, by rw [show e.1 + (a - e.1) = a by omega]⟩
    refine ih (fun x hx => hes x (List.mem_cons_of_mem _ hx)) (addRegion rs e.1 e.2.length) (fun a => S a ∨ (e.1 ≤ a ∧ a < e.1 + e.2.length))
      ⟨fun a => by rw [covers_add, h.cov], pos_add rs _ _ hp h.pos⟩ ?_ hn2 ?_
    · refine apart_add rs _ _ hp h.pos hd fun a hc ha => ?_
      refine hS a ((h.cov a).1 hc) ?_
      exact (mem_flat _ a).2 ⟨e, List.mem_cons_self, ha⟩
    · rintro a (hs | ha) ⟨v, hv⟩
      · refine hS a hs ⟨v, ?_⟩
        rw [hfl]
        exact List.mem_append_right _ hv
      · exact hn3 a (hin a ha) a (List.mem_map.2 ⟨(a, v), hv, rfl⟩) rfl

theorem addRegion_ne (rs : List Region) (s l : Nat) : addRegion rs s l ≠ [] := by
  unfold addRegion
  cases rs.getLast? with
  | none => simp
  | some p => dsimp only; split <;> simp

theorem regionsOf_ne (es : List (Nat × List Byte)) (rs : List Region) (h : es ≠ [] ∨ rs ≠ []) : regionsOf es rs ≠ [] := by
  induction es generalizing rs with
  | nil => rcases h with h | h
           · exact absurd rfl h
           · exact h
  | cons e es ih => exact ih _ (Or.inr (addRegion_ne _ _ _))

/-! ## The bytes -/

def lastAt (l : List (Nat × Byte)) (a : Nat) : Option Byte := (l.reverse.find? (fun p => p.1 == a)).map (·.2)

theorem lastAt_append (l m : List (Nat × Byte)) (a : Nat) : lastAt (l ++ m) a = (lastAt m a).or (lastAt l a) := by
  unfold lastAt
  rw [List.reverse_append, List.find?_append]
  cases (m.reverse.find? fun p => p.1 == a) <;> rfl

theorem lastAt_mapIdx (d : List Byte) (s a : Nat) :
    lastAt (d.mapIdx fun i v => (s + i, v)) a = if s ≤ a then d[a - s]? else none := by
  induction d generalizing s with
  | nil => simp [lastAt]
  | cons x d ih =>
    have e : ((x :: d).mapIdx fun i v => (s + i, v)) = [(s, x)] ++ d.mapIdx fun i v => (s + 1 + i, v) := by
      rw [List.mapIdx_cons]
      show (s + 0, x) :: _ = (s, x) :: _
      rw [Nat.add_zero]
      congr 1
      exact mapIdx_congr _ _ _ fun i _ v => by rw [show s + (i + 1) = s + 1 + i by omega]
    have e2 : lastAt [(s, x)] a = if s = a then some x else none := by
      unfold lastAt
      by_cases q : s = a
      · rw [if_pos q]; simp [q]
      · rw [if_neg q]; simp [q]
    rw [e, lastAt_append, ih, e2]
    by_cases q : s = a
    · subst q
      rw [if_neg (by omega), if_pos rfl, if_pos (Nat.le_refl _), Nat.sub_self]
      rfl
    · rw [if_neg q, Option.or_none]
      by_cases q2 : s ≤ a
      · rw [if_pos q2, if_pos (by omega), show a - s = (a - (s + 1)) + 1 by omega, List.getElem?_cons_succ]
      · rw [if_neg q2, if_neg (by omega)]

theorem writeData_length (out : Region) (b : List Byte) (a : Nat) (d : List Byte) (hb : b.length = out.length) :
    (writeData out b a d).length = out.length := by
  unfold writeData
  by_cases q : out.start ≤ a ∧ a < out.start + out.length
  · rw [if_pos q]
    dsimp only
    rw [List.length_append, List.length_append, List.length_take, List.length_take, List.length_drop, hb]
    by_cases q2 : a + d.length ≥ out.start + out.length
    · rw [if_pos q2]; omega
    · rw [if_neg q2]; omega
  · rw [if_neg q]; exact hb

theorem writeData_get (out : Region) (b : List Byte) (a : Nat) (d : List Byte) (hb : b.length = out.length) (ha : out.start ≤ a) (i : Nat)
    (hi : i < out.length) :
    (writeData out b a d)[i]? = (if a ≤ out.start + i then d[out.start + i - a]? else none).or b[i]? := by
  unfold writeData
  by_cases q : out.start ≤ a ∧ a < out.start + out.length
  · rw [if_pos q]
    dsimp only
    generalize hn : (if a + d.length ≥ out.start + out.length then out.start + out.length - a else d.length) = n
    have hn1 : n ≤ d.length := by rw [← hn]; split <;> omega
    have hn2 : a - out.start + n ≤ out.length := by rw [← hn]; split <;> omega
    have hn3 : ∀ j, j < d.length → a - out.start + j < out.length → j < n := by
      intro j h1 h2; rw [← hn]; split <;> omega
    have l1 : (b.take (a - out.start)).length = a - out.start := by rw [List.length_take]; omega
    have l2 : (d.take n).length = n := by rw [List.length_take]; omega
    by_cases c1 : i < a - out.start
    · rw [List.append_assoc, List.getElem?_append_left (by omega), List.getElem?_take_of_lt c1, if_neg (by omega)]
      rfl
    · rw [if_pos (by omega)]
      by_cases c2 : i - (a - out.start) < n
      · rw [List.getElem?_append_left (by rw [List.length_append]; omega), List.getElem?_append_right (by omega), l1, List.getElem?_take_of_lt c2,
          show out.start + i - a = i - (a - out.start) by omega]
        rw [List.getElem?_eq_getElem (by omega)]
        rfl
      · rw [List.getElem?_append_right (by rw [List.length_append]; omega), List.length_append, l1, l2, List.getElem?_drop,
          show a - out.start + n + (i - (a - out.start + n)) = i by omega]
        rw [List.getElem?_eq_none (l := d) (by
          refine Decidable.byContradiction fun g => c2 (hn3 _ (by omega) (by omega)))]
        rfl
  · rw [if_neg q, if_neg (by omega)]
    rfl

theorem write_events (out : Region) (es : List (Nat × List Byte)) (b : List Byte) (hb : b.length = out.length) (ha : ∀ e ∈ es, out.start ≤ e.1) :
    (es.foldl (fun b e => writeData out b e.1 e.2) b).length = out.length ∧
    ∀ i, i < out.length → (es.foldl (fun b e => writeData out b e.1 e.2) b)[i]? = (lastAt (flat es) (out.start + i)).or b[i]? := by
  induction es generalizing b with
  | nil => exact ⟨hb, fun i _ => rfl⟩
  | cons e es ih =>
    obtain ⟨h1, h2⟩ := ih (writeData out b e.1 e.2) (writeData_length out b e.1 e.2 hb) (fun x hx => ha x (List.mem_cons_of_mem _ hx))
    refine ⟨h1, fun i hi => ?_⟩
    rw [List.foldl_cons, h2 i hi, writeData_get out b e.1 e.2 hb (ha e List.mem_cons_self) i hi,
      show flat (e :: es) = (e.2.mapIdx fun i v => (e.1 + i, v)) ++ flat es from rfl, lastAt_append, lastAt_mapIdx, Option.or_assoc]

end Verif.Boot.Hex
