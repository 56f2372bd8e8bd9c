import Verif.Boot.DiffTool
import Verif.Boot.DecompSpec

/-!
# The stream the tool generates denotes the new image
-/

namespace Verif.Boot.Tool
open Verif.Iap Verif.Boot Verif.Boot.Spec Verif.Boot.Decomp.Spec

/-- A run of `l` equal bytes, at `o` in `a` and at `p` in `b`. -/
structure Run (a b : List Byte) (p o l : Nat) : Prop where
  src : o + l ≤ a.length
  dst : p + l ≤ b.length
  eq : ∀ j, j < l → a.getD (o + j) 0#8 = b.getD (p + j) 0#8

theorem common_run (a b : List Byte) (i p : Nat) : ∀ n j, Run a b p i j →
    Run a b p i (common a b i p n j) ∧ common a b i p n j ≤ j + n
  | 0, j, h => ⟨h, by unfold common; omega⟩
  | n + 1, j, h => by
    unfold common
    by_cases hc : p + j < b.length ∧ i + j < a.length ∧ a.getD (i + j) 0#8 = b.getD (p + j) 0#8
    · rw [if_pos hc]
      obtain ⟨c1, c2, c3⟩ := hc
      have h' : Run a b p i (j + 1) := ⟨by omega, by omega, fun k hk => by
        by_cases hkj : k = j
        · rw [hkj]; exact c3
        · exact h.eq k (by omega)⟩
      obtain ⟨r1, r2⟩ := common_run a b i p n (j + 1) h'
      exact ⟨r1, by omega⟩
    · rw [if_neg hc]
      exact ⟨h, by omega⟩

theorem longest_run (a b : List Byte) (p m : Nat) (hp : p ≤ b.length) :
    Run a b p (longest a b p 0 m).1 (longest a b p 0 m).2 ∧ (longest a b p 0 m).2 ≤ m := by
  unfold longest
  have hinit : Run a b p (0, 0).1 (0, 0).2 ∧ (0, 0).2 ≤ m :=
    ⟨⟨Nat.zero_le _, hp, fun j hj => absurd hj (Nat.not_lt_zero _)⟩, Nat.zero_le _⟩
  have hmem : ∀ i ∈ List.range' 0 (a.length - 0), i ≤ a.length := by
    intro i hi
    have := List.mem_range'_1.mp hi
    omega
  generalize List.range' 0 (a.length - 0) = l at hmem
  revert hinit
  generalize ((0, 0) : Nat × Nat) = b0
  intro hinit
  induction l generalizing b0 with
  | nil => exact hinit
  | cons i l ih =>
    rw [List.foldl_cons]
    refine ih (fun x hx => hmem x (List.mem_cons_of_mem _ hx)) _ ?_
    dsimp only
    by_cases h : b0.2 < common a b i p m 0
    · rw [if_pos h]
      obtain ⟨r1, r2⟩ := common_run a b i p m 0 ⟨hmem i List.mem_cons_self, hp,
        fun j hj => absurd hj (Nat.not_lt_zero _)⟩
      exact ⟨r1, by rw [Nat.zero_add] at r2; exact r2⟩
    · rw [if_neg h]
      exact hinit

theorem Run.shorten {a b : List Byte} {p o l l' : Nat} (h : Run a b p o l) (hl : l' ≤ l) : Run a b p o l' :=
  ⟨by have := h.src; omega, by have := h.dst; omega, fun j hj => h.eq j (by omega)⟩

/-- The search finds a run of equal bytes that ends inside the destination page. -/
theorem search_run (a b : List Byte) (p m : Nat) (hp : p ≤ b.length) :
    Run a b p (letLongestCommonBytes a b p 0 m).1 (letLongestCommonBytes a b p 0 m).2 ∧
    (letLongestCommonBytes a b p 0 m).2 ≤ m ∧ p % 256 + (letLongestCommonBytes a b p 0 m).2 ≤ 256 := by
  obtain ⟨r1, r2⟩ := longest_run a b p m hp
  unfold letLongestCommonBytes
  dsimp only
  by_cases h0 : 0 < (longest a b p 0 m).2
  · rw [if_pos h0]
    dsimp only
    by_cases h1 : (p + (longest a b p 0 m).2 - 1) / 256 ≠ p / 256
    · rw [if_pos h1]
      have : (p / 256 + 1) * 256 - p ≤ (longest a b p 0 m).2 := by omega
      exact ⟨r1.shorten this, by omega, by omega⟩
    · rw [if_neg h1]
      exact ⟨r1, r2, by omega⟩
  · rw [if_neg h0]
    exact ⟨⟨Nat.zero_le _, hp, fun j hj => absurd hj (Nat.not_lt_zero _)⟩, Nat.zero_le _, by
      show p % 256 + 0 ≤ 256; omega⟩

/-! ## Images -/

/-- What is in the application's flash when page `k` of the new image is about to be produced: the new image
up to there, the old one from there on. -/
def app (old new : List Byte) (k x : Nat) : Byte := if x < 256 * k then new.getD x 0#8 else old.getD x 0#8

/-- What the window of overwritten pages holds at that time: the last two pages of the old image, zeros before
the first. -/
def win (old : List Byte) (k x : Nat) : Byte := if 512 ≤ 256 * k + x then old.getD (256 * k + x - 512) 0#8 else 0#8

/-- Page `k` of an image; the last one may be shorter. -/
def pageOf (new : List Byte) (k : Nat) : List Byte := (new.drop (256 * k)).take 256

/-- `(stream, crc)` is a correct stream for page `k`: the wire format of well-formed commands that denote this
page, with the CRC-32 of the page. -/
def Good (old new : List Byte) (k : Nat) (p : List Byte × U32) : Prop :=
  ∃ cs, p.1 = encodeAll cs ∧ (∀ c ∈ cs, WF new.length c) ∧
    outputAll (app old new k) (win old k) cs = pageOf new k ∧ p.2 = crc32Std (pageOf new k)

theorem ofNat_or_flag (n f : Nat) (hf : f = 64 ∨ f = 128 ∨ f = 192) (hn : n < 64) :
    BitVec.ofNat 8 f ||| BitVec.ofNat 8 n = BitVec.ofNat 8 (f + n) := by
  have key : ∀ n : Fin 64, BitVec.ofNat 8 64 ||| BitVec.ofNat 8 n.1 = BitVec.ofNat 8 (64 + n.1) ∧
      BitVec.ofNat 8 128 ||| BitVec.ofNat 8 n.1 = BitVec.ofNat 8 (128 + n.1) ∧
      BitVec.ofNat 8 192 ||| BitVec.ofNat 8 n.1 = BitVec.ofNat 8 (192 + n.1) := by decide +kernel
  obtain ⟨k1, k2, k3⟩ := key ⟨n, hn⟩
  rcases hf with rfl | rfl | rfl
  · exact k1
  · exact k2
  · exact k3

theorem ofNat_mod (n : Nat) : BitVec.ofNat 8 (n % 256) = BitVec.ofNat 8 n := by
  apply BitVec.eq_of_toNat_eq
  simp

theorem finishRaw_encode (raw : List Byte) (hr : raw ≠ []) (hl : raw.length ≤ 256) :
    ∃ c, finishRaw raw = encode c ∧ WF 0 c ∧ ∀ a w, output a w c = raw := by
  have hpos : 0 < raw.length := List.length_pos_iff.mpr hr
  unfold finishRaw
  rw [if_neg (by rw [List.isEmpty_iff]; exact hr)]
  by_cases h : raw.length ≤ 63
  · rw [if_pos h]
    refine ⟨.raw false raw, ?_, ⟨hpos, by show raw.length < 64; omega⟩, fun _ _ => rfl⟩
    show _ = [header false false raw.length] ++ raw
    unfold header
    rw [Nat.mod_eq_of_lt (by omega : raw.length < 64)]
    simp
  · rw [if_neg h]
    refine ⟨.raw true raw, ?_, ⟨hpos, by show raw.length < 16384; omega⟩, fun _ _ => rfl⟩
    show _ = [header false true (raw.length / 256), BitVec.ofNat 8 raw.length] ++ raw
    unfold header
    rw [Nat.mod_eq_of_lt (by omega : raw.length / 256 < 64), ofNat_mod]
    have := ofNat_or_flag (raw.length / 256) 64 (Or.inl rfl) (by omega)
    rw [show (0x40#8 : Byte) = BitVec.ofNat 8 64 from rfl, this]
    simp

theorem or_addr (ram : Bool) (n : Nat) (hn : n < 128) :
    BitVec.ofNat 8 (n % 256) ||| (if ram then 0x80#8 else 0#8)
      = BitVec.ofNat 8 ((if ram then 128 else 0) + n) := by
  have key : ∀ n : Fin 128, ∀ ram : Bool, BitVec.ofNat 8 (n.1 % 256) ||| (if ram then 0x80#8 else 0#8)
      = BitVec.ofNat 8 ((if ram then 128 else 0) + n.1) := by decide +kernel
  exact key ⟨n, hn⟩ ram

theorem copyCommand_encode (ram : Bool) (o l : Nat) (hl : l < 16384) (ho : o < 2 ^ 23) :
    copyCommand ram o l = encode (if ram then .copyOldPages (decide (63 < l)) o l
      else .copyFlash (decide (63 < l)) o l) := by
  have e : encode (if ram then .copyOldPages (decide (63 < l)) o l else .copyFlash (decide (63 < l)) o l)
      = lengthBytes true (decide (63 < l)) l ++ addressBytes ram o := by cases ram <;> rfl
  rw [e]
  unfold copyCommand lengthBytes addressBytes
  rw [or_addr ram _ (by omega), ofNat_mod, ofNat_mod, ofNat_mod]
  congr 1
  by_cases h : l ≤ 63
  · rw [if_pos h, decide_eq_false (by omega), if_neg (by decide), Nat.mod_eq_of_lt (by omega : l < 64)]
    unfold header
    rw [show (0x80#8 : Byte) = BitVec.ofNat 8 128 from rfl, ofNat_or_flag l 128 (Or.inr (Or.inl rfl)) (by omega)]
    rfl
  · rw [if_neg h, decide_eq_true (by omega), if_pos rfl, Nat.mod_eq_of_lt (by omega : l / 256 < 64)]
    unfold header
    rw [show (0x80#8 ||| 0x40#8 : Byte) = BitVec.ofNat 8 192 from rfl,
      ofNat_or_flag _ 192 (Or.inr (Or.inr rfl)) (by omega)]
    rfl

theorem WF_mono {r r' : Nat} (h : r ≤ r') {c : Cmd} (hc : WF r c) : WF r' c := by
  cases c with
  | raw l b => exact hc
  | copyFlash l o n =>
    obtain ⟨h1, h2, h3⟩ := hc
    exact ⟨h1, h2, by omega⟩
  | copyOldPages l o n => exact hc

theorem outputAll_append (a w : Nat → Byte) (c1 c2 : List Cmd) :
    outputAll a w (c1 ++ c2) = outputAll a w c1 ++ outputAll a w c2 := List.flatMap_append

theorem encodeAll_append (c1 c2 : List Cmd) : encodeAll (c1 ++ c2) = encodeAll c1 ++ encodeAll c2 :=
  List.flatMap_append

/-- Only the application and the window inside their bounds matter. -/
theorem outputAll_congr {a a' w w' : Nat → Byte} {room : Nat} (ha : ∀ x, x < room → a x = a' x)
    (hw : ∀ x, x < 512 → w x = w' x) : ∀ (cs : List Cmd), (∀ c ∈ cs, WF room c) →
    outputAll a w cs = outputAll a' w' cs
  | [], _ => rfl
  | c :: cs, h => by
    show output a w c ++ outputAll a w cs = output a' w' c ++ outputAll a' w' cs
    rw [outputAll_congr ha hw cs (fun x hx => h x (List.mem_cons_of_mem _ hx))]
    congr 1
    have hc := h c List.mem_cons_self
    cases c with
    | raw l b => rfl
    | copyFlash l o n =>
      refine List.map_congr_left (fun i hi => ha _ ?_)
      have := hc.2.2
      have := List.mem_range.mp hi
      omega
    | copyOldPages l o n =>
      refine List.map_congr_left (fun i hi => hw _ ?_)
      have := hc.2
      have := List.mem_range.mp hi
      omega

/-! ## Invariant of the loop -/

theorem range_map_getD (b : List Byte) (p l : Nat) (h : p + l ≤ b.length) :
    (List.range l).map (fun j => b.getD (p + j) 0#8) = (b.drop p).take l := by
  apply List.ext_getElem
  · simp; omega
  · intro i h1 h2
    simp at h1
    simp [List.getElem?_eq_getElem (show p + i < b.length by omega)]

theorem take_add_drop (b : List Byte) (q i l : Nat) (hq : q ≤ i) :
    (b.drop q).take (i - q) ++ (b.drop i).take l = (b.drop q).take (i + l - q) := by
  rw [show i + l - q = (i - q) + l by omega, List.take_add, List.drop_drop]
  rw [show q + (i - q) = i by omega]

/-- State of the loop; `old` is the old image cut or padded to the length of the new one. -/
structure Inv (old new : List Byte) (s : St) : Prop where
  le : s.i ≤ new.length
  imgLen : s.img1.length = new.length
  img : ∀ x, x < new.length → s.img1.getD x 0#8 = app old new (s.i / 256) x
  wLen : s.w.length = 512
  win : ∀ x, x < 512 → s.w.getD x 0#8 = win old (s.i / 256) x
  stream : ∃ cs, s.out = encodeAll cs ∧ (∀ c ∈ cs, WF new.length c) ∧
    outputAll (app old new (s.i / 256)) (Tool.win old (s.i / 256)) cs ++ s.raw
      = (new.drop (256 * (s.i / 256))).take (s.i - 256 * (s.i / 256))
  rawLen : s.raw.length ≤ s.i - 256 * (s.i / 256)
  fresh : s.i % 256 = 0 → s.out = [] ∧ s.raw = []
  sentLen : s.sent.length = s.i / 256
  good : ∀ k (h : k < s.sent.length), Good old new k s.sent[k]

/-- The state between choosing a command and finishing the page: still page `k`. -/
structure Mid (old new : List Byte) (k : Nat) (s : St) : Prop where
  lo : 256 * k < s.i
  hi : s.i ≤ 256 * k + 256
  le : s.i ≤ new.length
  imgLen : s.img1.length = new.length
  img : ∀ x, x < new.length → s.img1.getD x 0#8 = app old new k x
  wLen : s.w.length = 512
  win : ∀ x, x < 512 → s.w.getD x 0#8 = win old k x
  stream : ∃ cs, s.out = encodeAll cs ∧ (∀ c ∈ cs, WF new.length c) ∧
    outputAll (app old new k) (Tool.win old k) cs ++ s.raw = (new.drop (256 * k)).take (s.i - 256 * k)
  rawLen : s.raw.length ≤ s.i - 256 * k
  sentLen : s.sent.length = k
  good : ∀ k (h : k < s.sent.length), Good old new k s.sent[k]

theorem finish_stream {a w : Nat → Byte} {room : Nat} {raw out X : List Byte} (hl : raw.length ≤ 256)
    (h : ∃ cs, out = encodeAll cs ∧ (∀ c ∈ cs, WF room c) ∧ outputAll a w cs ++ raw = X) :
    ∃ cs, out ++ finishRaw raw = encodeAll cs ∧ (∀ c ∈ cs, WF room c) ∧ outputAll a w cs = X := by
  obtain ⟨cs, e1, e2, e3⟩ := h
  by_cases hr : raw = []
  · subst hr
    refine ⟨cs, ?_, e2, ?_⟩
    · rw [e1]; exact List.append_nil _
    · rw [← e3, List.append_nil]
  · obtain ⟨c, c1, c2, c3⟩ := finishRaw_encode raw hr hl
    refine ⟨cs ++ [c], ?_, ?_, ?_⟩
    · rw [encodeAll_append, e1, c1]
      show _ = _ ++ (encode c ++ [])
      rw [List.append_nil]
    · intro x hx
      rcases List.mem_append.mp hx with h | h
      · exact e2 x h
      · rw [List.mem_singleton.mp h]
        exact WF_mono (Nat.zero_le _) c2
    · rw [outputAll_append, ← e3]
      show _ ++ (output a w c ++ []) = _
      rw [List.append_nil, c3]

theorem choose_mid {old new : List Byte} (hbig : new.length ≤ 2 ^ 23) {s : St} (h : Inv old new s)
    (hi : s.i < new.length) : Mid old new (s.i / 256) (choose new s) ∧ s.i < (choose new s).i := by
  obtain ⟨b1, b2, b3⟩ := search_run s.w new s.i 2047 h.le
  obtain ⟨f1, f2, f3⟩ := search_run s.img1 new s.i 2047 h.le
  unfold choose
  dsimp only
  generalize letLongestCommonBytes s.w new s.i 0 2047 = B at b1 b2 b3
  generalize letLongestCommonBytes s.img1 new s.i 0 2047 = F at f1 f2 f3
  -- whichever is chosen: a well-formed command that denotes the bytes
  have key : ∀ (ram : Bool) (R : Nat × Nat), (ram = true → R = B) → (ram = false → R = F) → 6 ≤ R.2 →
      Mid old new (s.i / 256) { s with
        i := s.i + R.2, raw := [], out := s.out ++ finishRaw s.raw ++ copyCommand ram R.1 R.2 } := by
    intro ram R hB hF h6
    have bound : R.2 ≤ 2047 ∧ s.i % 256 + R.2 ≤ 256 ∧ s.i + R.2 ≤ new.length := by
      cases ram with
      | true => rw [hB rfl]; exact ⟨b2, b3, b1.dst⟩
      | false => rw [hF rfl]; exact ⟨f2, f3, f1.dst⟩
    obtain ⟨n1, n2, n3⟩ := bound
    have hraw := h.rawLen
    obtain ⟨cs, c1, c2, c3⟩ := finish_stream (by omega) h.stream
    have hoff : R.1 < 2 ^ 23 := by
      cases ram with
      | true =>
        have := b1.src
        rw [h.wLen] at this
        rw [hB rfl] at h6 ⊢
        omega
      | false =>
        have := f1.src
        rw [h.imgLen] at this
        rw [hF rfl] at h6 ⊢
        omega
    refine ⟨by show _ < s.i + R.2; omega, by show s.i + R.2 ≤ _; omega, n3, h.imgLen, h.img, h.wLen, h.win,
      ⟨cs ++ [if ram then .copyOldPages (decide (63 < R.2)) R.1 R.2 else .copyFlash (decide (63 < R.2)) R.1 R.2],
        ?_, ?_, ?_⟩, Nat.zero_le _, h.sentLen, h.good⟩
    · show s.out ++ finishRaw s.raw ++ copyCommand ram R.1 R.2 = _
      rw [c1, encodeAll_append, copyCommand_encode ram R.1 R.2 (by omega) hoff]
      show _ = _ ++ (_ ++ [])
      rw [List.append_nil]
    · intro c hc
      rcases List.mem_append.mp hc with hc | hc
      · exact c2 c hc
      · rw [List.mem_singleton.mp hc]
        have hlen : R.2 < (if decide (63 < R.2) = true then 16384 else 64) := by
          by_cases h63 : 63 < R.2
          · rw [if_pos (decide_eq_true h63)]; omega
          · rw [if_neg (by simpa using h63)]; omega
        cases ram with
        | true =>
          refine ⟨hlen, ?_⟩
          rw [hB rfl, ← h.wLen]
          exact b1.src
        | false =>
          refine ⟨hlen, hoff, ?_⟩
          rw [hF rfl, ← h.imgLen]
          exact f1.src
    · rw [List.append_nil, outputAll_append, c3]
      show _ ++ (output _ _ _ ++ []) = _
      rw [List.append_nil]
      show _ = (new.drop (256 * (s.i / 256))).take (s.i + R.2 - 256 * (s.i / 256))
      rw [← take_add_drop new _ s.i R.2 (by omega), ← range_map_getD new s.i R.2 n3]
      congr 1
      cases ram with
      | true =>
        refine List.map_congr_left (fun j hj => ?_)
        have hj := List.mem_range.mp hj
        have hs := b1.src
        rw [h.wLen] at hs
        rw [hB rfl] at hj ⊢
        rw [← b1.eq j hj, h.win _ (by omega)]
      | false =>
        refine List.map_congr_left (fun j hj => ?_)
        have hj := List.mem_range.mp hj
        have hs := f1.src
        rw [h.imgLen] at hs
        rw [hF rfl] at hj ⊢
        rw [← f1.eq j hj, h.img _ (by omega)]
  have raw1 : Mid old new (s.i / 256) { s with i := s.i + 1, raw := s.raw ++ [new.getD s.i 0#8] } := by
    obtain ⟨cs, c1, c2, c3⟩ := h.stream
    have hraw := h.rawLen
    refine ⟨by show _ < s.i + 1; omega, by show s.i + 1 ≤ _; omega, hi, h.imgLen, h.img, h.wLen, h.win,
      ⟨cs, c1, c2, ?_⟩, ?_, h.sentLen, h.good⟩
    · show _ ++ (s.raw ++ _) = (new.drop (256 * (s.i / 256))).take (s.i + 1 - 256 * (s.i / 256))
      rw [← List.append_assoc, c3, ← take_add_drop new _ s.i 1 (by omega), ← range_map_getD new s.i 1 hi]
      rfl
    · show (s.raw ++ [_]).length ≤ s.i + 1 - _
      rw [List.length_append, List.length_singleton]
      omega
  by_cases hc : B.2 < F.2
  · rw [if_pos hc, decide_eq_true hc]
    by_cases h6 : 6 ≤ F.2
    · rw [if_pos h6]
      exact ⟨key false F (fun h => by cases h) (fun _ => rfl) h6, by show s.i < s.i + F.2; omega⟩
    · rw [if_neg h6]
      exact ⟨raw1, Nat.lt_succ_self _⟩
  · rw [if_neg hc, decide_eq_false hc]
    by_cases h6 : 6 ≤ B.2
    · rw [if_pos h6]
      exact ⟨key true B (fun _ => rfl) (fun h => by cases h) h6, by show s.i < s.i + B.2; omega⟩
    · rw [if_neg h6]
      exact ⟨raw1, Nat.lt_succ_self _⟩

theorem len_aux {n : Nat} (h : n = 512) : n - 256 = 256 := by omega

theorem idx_aux1 (k x : Nat) : 256 * k + (256 + x) - 512 = 256 * (k + 1) + x - 512 := by omega

theorem idx_aux2 (k x : Nat) (h : 256 ≤ x) : 256 * (k + 1) + x - 512 = 256 * k + (x - 256) := by omega

theorem endPage_inv {old new : List Byte} {k : Nat} {s : St} (h : Mid old new k s) :
    Inv old new (endPage new s) ∧ (endPage new s).i = s.i := by
  have h1 := h.lo
  have h2 := h.hi
  unfold endPage
  by_cases hm : s.i % 256 = 0
  · rw [if_pos hm]
    dsimp only
    have hk : s.i = 256 * k + 256 := by omega
    have hk1 : s.i / 256 = k + 1 := by omega
    have hk0 : s.i - 256 = 256 * k := by omega
    have hle := h.le
    have hpl : ((new.drop (256 * k)).take 256).length = 256 := by simp; omega
    rw [hk0]
    refine ⟨⟨hle, ?_, ?_, ?_, ?_, ?_, ?_, fun _ => ⟨rfl, rfl⟩, ?_, ?_⟩, rfl⟩
    · show (s.img1.take (256 * k) ++ (new.drop (256 * k)).take 256 ++ s.img1.drop s.i).length = _
      have := h.imgLen
      simp
      omega
    · intro x hx
      show (s.img1.take (256 * k) ++ (new.drop (256 * k)).take 256 ++ s.img1.drop s.i).getD x 0#8 = _
      show _ = app old new (s.i / 256) x
      rw [hk1]
      have hil := h.imgLen
      have hx' := h.img x hx
      have htl : (s.img1.take (256 * k)).length = 256 * k := by rw [List.length_take]; omega
      unfold app at hx' ⊢
      by_cases c1 : x < 256 * k
      · rw [if_pos c1] at hx'
        rw [if_pos (by omega), ← hx', List.append_assoc]
        rw [List.getD_eq_getElem?_getD, List.getD_eq_getElem?_getD,
          List.getElem?_append_left (by rw [htl]; exact c1), List.getElem?_take_of_lt c1]
      · rw [if_neg c1] at hx'
        by_cases c2 : x < 256 * (k + 1)
        · rw [if_pos c2, List.append_assoc]
          rw [List.getD_eq_getElem?_getD, List.getD_eq_getElem?_getD,
            List.getElem?_append_right (by rw [htl]; omega), htl,
            List.getElem?_append_left (by rw [hpl]; omega), List.getElem?_take_of_lt (by omega),
            List.getElem?_drop]
          rw [show 256 * k + (x - 256 * k) = x by omega]
        · rw [if_neg c2, ← hx']
          rw [List.getD_eq_getElem?_getD, List.getD_eq_getElem?_getD,
            List.getElem?_append_right (by rw [List.length_append, htl, hpl]; omega),
            List.length_append, htl, hpl, List.getElem?_drop]
          rw [show s.i + (x - (256 * k + 256)) = x by omega]
    · show (fillNextPage s.w s.img1 (256 * k)).length = 512
      have := h.imgLen
      have := h.wLen
      unfold fillNextPage
      simp
      omega
    · intro x hx
      show (fillNextPage s.w s.img1 (256 * k)).getD x 0#8 = Tool.win old (s.i / 256) x
      rw [hk1]
      have hil := h.imgLen
      have hwl := h.wLen
      have hdl : (s.w.drop 256).length = 256 := List.length_drop.trans (len_aux hwl)
      have hpl' : ((s.img1.drop (256 * k)).take 256).length = 256 := by
        rw [List.length_take, List.length_drop]; omega
      unfold fillNextPage
      dsimp only
      by_cases c1 : x < 256
      · rw [List.append_assoc, List.getD_eq_getElem?_getD, List.getElem?_append_left (by rw [hdl]; exact c1),
          List.getElem?_drop, ← List.getD_eq_getElem?_getD, h.win _ (by omega)]
        unfold Tool.win
        by_cases c2 : 512 ≤ 256 * k + (256 + x)
        · rw [if_pos c2, if_pos (by omega), idx_aux1 k x]
        · rw [if_neg c2, if_neg (by omega)]
      · rw [List.append_assoc, List.getD_eq_getElem?_getD, List.getElem?_append_right (by rw [hdl]; omega), hdl,
          List.getElem?_append_left (by rw [hpl']; omega), List.getElem?_take_of_lt (by omega),
          List.getElem?_drop, ← List.getD_eq_getElem?_getD, h.img _ (by omega)]
        unfold Tool.win app
        rw [if_neg (by omega), if_pos (by omega), idx_aux2 k x (by omega)]
    · refine ⟨[], rfl, fun c hc => absurd hc List.not_mem_nil, ?_⟩
      show [] ++ [] = (new.drop (256 * (s.i / 256))).take (s.i - 256 * (s.i / 256))
      rw [show s.i - 256 * (s.i / 256) = 0 by omega]
      rfl
    · exact Nat.zero_le _
    · show (s.sent ++ [_]).length = s.i / 256
      rw [List.length_append, h.sentLen, hk1]
      rfl
    · intro j hj
      by_cases hjk : j < s.sent.length
      · have : (s.sent ++ [(s.out ++ finishRaw s.raw, crc32Std ((new.drop (256 * k)).take 256))])[j]'hj
            = s.sent[j] := List.getElem_append_left hjk
        rw [this]
        exact h.good j hjk
      · have hjl : j < (s.sent ++ [(s.out ++ finishRaw s.raw, crc32Std ((new.drop (256 * k)).take 256))]).length := hj
        rw [List.length_append, List.length_singleton] at hjl
        have hje : j = s.sent.length := by omega
        have : (s.sent ++ [(s.out ++ finishRaw s.raw, crc32Std ((new.drop (256 * k)).take 256))])[j]'hj
            = (s.out ++ finishRaw s.raw, crc32Std ((new.drop (256 * k)).take 256)) := by
          subst hje
          simp
        rw [this, hje, h.sentLen]
        have hraw := h.rawLen
        obtain ⟨cs, c1, c2, c3⟩ := finish_stream (by omega) h.stream
        refine ⟨cs, c1, c2, ?_, rfl⟩
        rw [c3, hk]
        unfold pageOf
        rw [Nat.add_sub_cancel_left]
  · rw [if_neg hm]
    have hk1 : s.i / 256 = k := by omega
    refine ⟨⟨h.le, h.imgLen, ?_, h.wLen, ?_, ?_, ?_, fun h => absurd h hm, ?_, h.good⟩, rfl⟩
    · rw [hk1]; exact h.img
    · rw [hk1]; exact h.win
    · rw [hk1]; exact h.stream
    · rw [hk1]; exact h.rawLen
    · rw [hk1]; exact h.sentLen

theorem loop_inv {old new : List Byte} (hbig : new.length ≤ 2 ^ 23) : ∀ (fuel : Nat) (s : St), Inv old new s →
    new.length - s.i ≤ fuel → Inv old new (loop new fuel s) ∧ (loop new fuel s).i = new.length
  | 0, s, h, hf => ⟨h, by have := h.le; show s.i = _; omega⟩
  | fuel + 1, s, h, hf => by
    unfold loop
    by_cases hi : s.i < new.length
    · rw [if_pos hi]
      obtain ⟨m1, m2⟩ := choose_mid hbig h hi
      obtain ⟨e1, e2⟩ := endPage_inv m1
      exact loop_inv hbig fuel _ e1 (by rw [e2]; omega)
    · rw [if_neg hi]
      exact ⟨h, by have := h.le; omega⟩

theorem copyOf_length (l : List Byte) (n : Nat) : (copyOf l n).length = n := by
  unfold copyOf
  simp
  omega

theorem start_inv (old new : List Byte) : Inv (copyOf old new.length) new (start old new) := by
  refine ⟨Nat.zero_le _, copyOf_length _ _, ?_, List.length_replicate, ?_,
    ⟨[], rfl, fun c hc => absurd hc List.not_mem_nil, by
      show [] = List.take (0 - _) _
      rw [Nat.zero_sub]; rfl⟩, Nat.zero_le _, fun _ => ⟨rfl, rfl⟩, (Nat.zero_div _).symm,
    fun k hk => absurd hk (Nat.not_lt_zero _)⟩
  · intro x hx
    show (copyOf old new.length).getD x 0#8 = app _ new (0 / 256) x
    unfold app
    rw [if_neg (by omega)]
  · intro x hx
    show (List.replicate 512 0#8).getD x 0#8 = Tool.win _ (0 / 256) x
    unfold Tool.win
    rw [if_neg (by omega), List.getD_eq_getElem?_getD, List.getElem?_replicate, if_pos hx]
    rfl

/-- What the tool sends: a correct stream for every page of the new image, in order. -/
theorem generateDiff_good (old new : List Byte) (hbig : new.length ≤ 2 ^ 23) :
    (generateDiff old new).length = (new.length + 255) / 256 ∧
    ∀ k (h : k < (generateDiff old new).length),
      Good (copyOf old new.length) new k (generateDiff old new)[k] := by
  obtain ⟨h, hi⟩ := loop_inv hbig new.length (start old new) (start_inv old new) (Nat.sub_le _ _)
  unfold generateDiff
  dsimp only
  generalize loop new new.length (start old new) = s at h hi
  by_cases hm : new.length % 256 = 0
  · obtain ⟨f1, f2⟩ := h.fresh (by rw [hi]; exact hm)
    have he : (s.out ++ finishRaw s.raw).isEmpty = true := by rw [f1, f2]; rfl
    refine ⟨?_, ?_⟩
    · rw [if_pos he, h.sentLen, hi]
      omega
    · simp only [if_pos he]
      exact h.good
  · have hraw := h.rawLen
    obtain ⟨cs, c1, c2, c3⟩ := finish_stream (by omega) h.stream
    have hcs : cs ≠ [] := by
      intro hc
      rw [hc] at c3
      have := congrArg List.length c3
      simp only [List.length_take, List.length_drop] at this
      have h0 : (outputAll (app (copyOf old new.length) new (s.i / 256))
        (Tool.win (copyOf old new.length) (s.i / 256)) []).length = 0 := rfl
      omega
    have he : ¬ (s.out ++ finishRaw s.raw).isEmpty = true := by
      rw [c1]
      cases cs with
      | nil => exact absurd rfl hcs
      | cons c cs =>
        have : encodeAll (c :: cs) = encode c ++ encodeAll cs := rfl
        rw [this]
        have hlb : ∀ x y z, lengthBytes x y z ≠ [] := by
          intro x y z
          cases y <;> exact List.cons_ne_nil _ _
        have hne : encode c ≠ [] := by
          cases c <;> exact fun h => hlb _ _ _ (List.append_eq_nil_iff.mp h).1
        cases hq : encode c with
        | nil => exact absurd hq hne
        | cons a b => simp
    have hp : (new.drop (new.length - new.length % 256)).take (new.length % 256)
        = pageOf new (new.length / 256) := by
      unfold pageOf
      rw [show new.length - new.length % 256 = 256 * (new.length / 256) by omega]
      rw [List.take_of_length_le (by rw [List.length_drop]; omega),
        List.take_of_length_le (by rw [List.length_drop]; omega)]
    refine ⟨?_, ?_⟩
    · rw [if_neg he, List.length_append, h.sentLen, hi, List.length_singleton]
      omega
    · simp only [if_neg he]
      intro k hk
      by_cases hks : k < s.sent.length
      · rw [List.getElem_append_left hks]
        exact h.good k hks
      · rw [List.length_append, List.length_singleton] at hk
        have hke : k = s.sent.length := by omega
        rw [List.getElem_append_right (by omega)]
        simp only [List.getElem_singleton]
        have hk2 : k = new.length / 256 := by rw [hke, h.sentLen, hi]
        refine ⟨cs, c1, c2, ?_, by rw [hk2]; exact congrArg crc32Std hp⟩
        rw [hi] at c3
        rw [hk2, c3, ← hp]
        rw [show new.length - new.length % 256 = 256 * (new.length / 256) by omega,
          show new.length % 256 = new.length - 256 * (new.length / 256) by omega]

theorem telegrams_flatten : ∀ (fuel : Nat) (l : List Byte), l.length ≤ fuel → (telegrams fuel l).flatten = l
  | 0, l, h => by rw [List.eq_nil_of_length_eq_zero (by omega : l.length = 0)]; rfl
  | fuel + 1, l, h => by
    unfold telegrams
    by_cases he : l.isEmpty
    · rw [if_pos he, List.isEmpty_iff.mp he]; rfl
    · rw [if_neg he, List.flatten_cons]
      have hne : l ≠ [] := fun h => he (List.isEmpty_iff.mpr h)
      have := List.length_pos_iff.mpr hne
      rw [telegrams_flatten fuel (l.drop 13) (by rw [List.length_drop]; omega), List.take_append_drop]

theorem telegrams_size : ∀ (fuel : Nat) (l : List Byte), ∀ t ∈ telegrams fuel l, 1 ≤ t.length ∧ t.length ≤ 13
  | 0, l, t, h => absurd h List.not_mem_nil
  | fuel + 1, l, t, h => by
    unfold telegrams at h
    by_cases he : l.isEmpty
    · rw [if_pos he] at h; exact absurd h List.not_mem_nil
    · rw [if_neg he] at h
      have hne : l ≠ [] := fun h => he (List.isEmpty_iff.mpr h)
      have := List.length_pos_iff.mpr hne
      rcases List.mem_cons.mp h with rfl | h
      · rw [List.length_take]; omega
      · exact telegrams_size fuel _ t h

end Verif.Boot.Tool
