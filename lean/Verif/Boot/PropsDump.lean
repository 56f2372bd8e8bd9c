import Verif.Boot.PropsHex

/-!
# C83: a dump of the bootloader is a hex file with the bytes that were dumped
-/

namespace Verif.Boot.Hex
open Verif Verif.Boot.HexSpec

/-! ## Digits -/

/-- Character of a hexadecimal digit. -/
def hexChar (d : Nat) : Nat := (Text.digitChar d).toNat

theorem hexChar_digit : ∀ d, d < 16 → digit (hexChar d) = some d ∧ hexChar d ≠ 10 ∧ hexChar d ≠ 13 := by decide

theorem printHex_two {v : Nat} (h : v < 256) : printHex v 2 = [hexChar (v / 16), hexChar (v % 16)] := by
  have ht : (BitVec.ofNat 32 v).toNat = v := by rw [BitVec.toNat_ofNat]; omega
  have e : Text.printLoop 16 35 v 2 [] = [Text.digitChar (v / 16 % 16), Text.digitChar (v % 16)] := by
    have h0 : v / 16 / 16 = 0 := by omega
    simp [Text.printLoop, h0]
  unfold printHex Text.printUInt
  rw [ht]
  show (((if (Text.printLoop 16 35 v 2 []).length ≤ Text.PRINTBUF_SIZE then some (Text.printLoop 16 35 v 2 []) else none).getD []).map BitVec.toNat) = _
  rw [e, if_pos (by show (2 : Nat) ≤ _; decide), show v / 16 % 16 = v / 16 by omega]
  rfl

theorem printHex_four {v : Nat} (h : v < 65536) :
    printHex v 4 = [hexChar (v / 4096), hexChar (v / 256 % 16), hexChar (v / 16 % 16), hexChar (v % 16)] := by
  have ht : (BitVec.ofNat 32 v).toNat = v := by rw [BitVec.toNat_ofNat]; omega
  have e : Text.printLoop 16 37 v 4 [] =
      [Text.digitChar (v / 16 / 16 / 16 % 16), Text.digitChar (v / 16 / 16 % 16), Text.digitChar (v / 16 % 16), Text.digitChar (v % 16)] := by
    have h0 : v / 16 / 16 / 16 / 16 = 0 := by omega
    simp [Text.printLoop, h0]
  unfold printHex Text.printUInt
  rw [ht]
  show (((if (Text.printLoop 16 37 v 4 []).length ≤ Text.PRINTBUF_SIZE then some (Text.printLoop 16 37 v 4 []) else none).getD []).map BitVec.toNat) = _
  rw [e, if_pos (by show (4 : Nat) ≤ _; decide), show v / 16 / 16 / 16 % 16 = v / 4096 by omega, show v / 16 / 16 % 16 = v / 256 % 16 by omega]
  rfl

theorem printHex_five : printHex 65536 4 = [49, 48, 48, 48, 48] := by decide +kernel

theorem writes_append {cs ds : List Nat} {bs es : List Byte} (h : Writes cs bs) (g : Writes ds es) : Writes (cs ++ ds) (bs ++ es) := by
  induction h with
  | nil => exact g
  | cons ha hb _ ih => exact Writes.cons ha hb ih

theorem writes_two {v : Nat} (h : v < 256) : Writes (printHex v 2) [BitVec.ofNat 8 v] := by
  rw [printHex_two h]
  have := Writes.cons (hexChar_digit (v / 16) (by omega)).1 (hexChar_digit (v % 16) (by omega)).1 Writes.nil
  rwa [show 16 * (v / 16) + v % 16 = v by omega] at this

theorem hi_of {v : Nat} (h : v < 65536) : hi (BitVec.ofNat 16 v) = BitVec.ofNat 8 (v / 256) := by
  apply BitVec.eq_of_toNat_eq
  have := hi_lo (BitVec.ofNat 16 v)
  have h1 := (hi (BitVec.ofNat 16 v)).isLt
  have h2 := (lo (BitVec.ofNat 16 v)).isLt
  rw [BitVec.toNat_ofNat] at this
  rw [BitVec.toNat_ofNat]
  omega

theorem lo_of {v : Nat} (h : v < 65536) : lo (BitVec.ofNat 16 v) = BitVec.ofNat 8 (v % 256) := by
  apply BitVec.eq_of_toNat_eq
  have := hi_lo (BitVec.ofNat 16 v)
  have h1 := (hi (BitVec.ofNat 16 v)).isLt
  have h2 := (lo (BitVec.ofNat 16 v)).isLt
  rw [BitVec.toNat_ofNat] at this
  rw [BitVec.toNat_ofNat]
  omega

theorem writes_four {v : Nat} (h : v < 65536) : Writes (printHex v 4) [hi (BitVec.ofNat 16 v), lo (BitVec.ofNat 16 v)] := by
  rw [printHex_four h, hi_of h, lo_of h]
  have := Writes.cons (hexChar_digit (v / 4096) (by omega)).1 (hexChar_digit (v / 256 % 16) (by omega)).1
    (Writes.cons (hexChar_digit (v / 16 % 16) (by omega)).1 (hexChar_digit (v % 16) (by omega)).1 Writes.nil)
  rwa [show 16 * (v / 4096) + v / 256 % 16 = v / 256 by omega, show 16 * (v / 16 % 16) + v % 16 = v % 256 by omega] at this

theorem writes_bytes : ∀ bs : List Byte, Writes (bs.flatMap fun x => printHex x.toNat 2) bs
  | [] => Writes.nil
  | b :: bs => by
    rw [List.flatMap_cons]
    have := writes_append (writes_two b.isLt) (writes_bytes bs)
    rwa [BitVec.ofNat_toNat, BitVec.setWidth_eq] at this

theorem writes_ascii {cs : List Nat} {bs : List Byte} (h : Writes cs bs) : ∀ c ∈ cs, c ≠ 10 ∧ c ≠ 13 := by
  induction h with
  | nil => intro c hc; cases hc
  | cons ha hb _ ih =>
    have h1 := digit_ge ha
    have h2 := digit_ge hb
    intro c hc
    rcases List.mem_cons.1 hc with rfl | hc
    · omega
    · rcases List.mem_cons.1 hc with rfl | hc
      · omega
      · exact ih c hc

/-! ## Checksums and lines -/

theorem xor255 : ∀ x : Byte, (x.toNat ^^^ 255) % 256 = 255 - x.toNat := by decide +kernel

theorem checksum_lt (n : Nat) : lineChecksum n < 256 := Nat.mod_lt _ (by decide)

theorem checksum_neg (n : Nat) : lineChecksum n = (256 - n % 256) % 256 := by
  unfold lineChecksum
  have := xor255 (BitVec.ofNat 8 n)
  rw [BitVec.toNat_ofNat] at this
  rw [show n % 2 ^ 8 = n % 256 from rfl] at this
  rw [this]
  omega

theorem checksum_octets (body : List Byte) (n : Nat) (h : (body.map BitVec.toNat).sum % 256 = n % 256) :
    BitVec.ofNat 8 (lineChecksum n) = -(body.foldl (· + ·) 0#8) := by
  apply BitVec.eq_of_toNat_eq
  rw [BitVec.toNat_neg, foldl_sum, BitVec.toNat_ofNat, checksum_neg]
  show _ = (256 - _) % 256
  rw [show (0#8).toNat = 0 from rfl, Nat.zero_add, h, Nat.mod_mod]

theorem linesFrom_run (acc : List Nat) : ∀ (l rest : List Nat), (∀ c ∈ l, c ≠ 10 ∧ c ≠ 13) → linesFrom acc (l ++ rest) = linesFrom (l.reverse ++ acc) rest := by
  intro l
  induction l generalizing acc with
  | nil => intro rest _; rfl
  | cons c l ih =>
    intro rest h
    have hc := h c (List.mem_cons_self ..)
    rw [List.cons_append, linesFrom_char _ _ hc.1 hc.2, ih (c :: acc) rest (fun x hx => h x (List.mem_cons_of_mem _ hx)),
      List.reverse_cons, List.append_assoc]
    rfl

theorem lines_line (l rest : List Nat) (h : ∀ c ∈ l, c ≠ 10 ∧ c ≠ 13) : lines (l ++ crlf ++ rest) = l :: lines rest := by
  unfold lines
  rw [List.append_assoc, linesFrom_run [] l _ h, List.append_nil]
  show linesFrom l.reverse (13 :: 10 :: rest) = _
  rw [linesFrom_crlf, List.reverse_reverse]

theorem line_ascii {l : List Nat} {r : Rec} (h : Line l r) : ∀ c ∈ l, c ≠ 10 ∧ c ≠ 13 := by
  obtain ⟨cs, rfl, h⟩ := h
  intro c hc
  rcases List.mem_cons.1 hc with rfl | hc
  · decide
  · exact writes_ascii h c hc

/-! ## The records of a dump -/

def dumpRecs (bytesPerLine : Nat) : Nat → Nat → List Byte → List Rec
  | 0, _, _ => []
  | fuel + 1, address, rest =>
    if rest.isEmpty then []
    else .data (BitVec.ofNat 16 address) (rest.take bytesPerLine) ::
      dumpRecs bytesPerLine fuel (address + (rest.take bytesPerLine).length) (rest.drop bytesPerLine)

theorem data_line (address : Nat) (bytes : List Byte) (ha : address < 65536) (hb : bytes.length < 256) :
    Line ([58] ++ printHex bytes.length 2 ++ printHex address 4 ++ printHex 0 2 ++ bytes.flatMap (fun x => printHex x.toNat 2) ++
      printHex (lineChecksum (bytes.length + (address / 256 % 256 + address % 256) + 0 + (bytes.map BitVec.toNat).sum)) 2)
      (.data (BitVec.ofNat 16 address) bytes) := by
  refine ⟨printHex bytes.length 2 ++ (printHex address 4 ++ (printHex 0 2 ++ (bytes.flatMap (fun x => printHex x.toNat 2) ++
      printHex (lineChecksum (bytes.length + (address / 256 % 256 + address % 256) + 0 + (bytes.map BitVec.toNat).sum)) 2))), by simp, ?_⟩
  have h := writes_append (writes_two hb) (writes_append (writes_four ha) (writes_append (writes_two (v := 0) (by decide))
    (writes_append (writes_bytes bytes) (writes_two (checksum_lt (bytes.length + (address / 256 % 256 + address % 256) + 0 + (bytes.map BitVec.toNat).sum))))))
  rw [checksum_octets (Rec.data (BitVec.ofNat 16 address) bytes).body] at h
  · exact h
  · show ((BitVec.ofNat 8 bytes.length :: hi (BitVec.ofNat 16 address) :: lo (BitVec.ofNat 16 address) :: 0#8 :: bytes).map BitVec.toNat).sum % 256 = _
    rw [hi_of ha, lo_of ha]
    simp only [List.map_cons, List.sum_cons, BitVec.toNat_ofNat]
    omega

theorem dumpLines_lines (bpl : Nat) (h1 : 1 ≤ bpl) (h2 : bpl ≤ 255) : ∀ (fuel address : Nat) (rest : List Byte) (more : List Nat) (rs : List Rec),
    rest.length ≤ fuel → address + rest.length ≤ 65536 → Lines (lines more) rs →
    Lines (lines (dumpLines bpl fuel address rest ++ more)) (dumpRecs bpl fuel address rest ++ rs)
  | 0, _, _, _, _, _, _, h => h
  | fuel + 1, address, rest, more, rs, hf, ha, h => by
    unfold dumpLines dumpRecs
    cases he : rest.isEmpty with
    | true => exact h
    | false =>
      have hpos : 0 < rest.length := by
        cases rest with
        | nil => cases he
        | cons _ _ => exact Nat.succ_pos _
      rw [if_neg (by decide), if_neg (by decide)]
      have hl := data_line address (rest.take bpl) (by omega) (by rw [List.length_take]; omega)
      have ih := dumpLines_lines bpl h1 h2 fuel (address + (rest.take bpl).length) (rest.drop bpl) more rs
        (by rw [List.length_drop]; omega) (by rw [List.length_take, List.length_drop]; omega) h
      dsimp only
      rw [List.append_assoc _ _ more, lines_line _ _ (line_ascii hl)]
      exact Lines.cons hl ih

theorem dumpRecs_data (bpl : Nat) : ∀ (fuel address : Nat) (rest : List Byte), ∀ r ∈ dumpRecs bpl fuel address rest,
    ∃ o, ∃ bs : List Byte, r = .data o bs ∧ bs.length ≤ bpl
  | 0, _, _, r, h => by cases h
  | fuel + 1, address, rest, r, h => by
    unfold dumpRecs at h
    split at h
    · cases h
    · rcases List.mem_cons.1 h with rfl | h
      · exact ⟨_, _, rfl, by rw [List.length_take]; omega⟩
      · exact dumpRecs_data bpl fuel _ _ r h

theorem dumpRecs_plain (bpl : Nat) (h1 : 1 ≤ bpl) (more : List Rec) (hm : Plain (.linear 0) more) : ∀ (fuel address : Nat) (rest : List Byte),
    address + rest.length ≤ 65536 → Plain (.linear 0) (dumpRecs bpl fuel address rest ++ more)
  | 0, _, _, _ => hm
  | fuel + 1, address, rest, ha => by
    unfold dumpRecs
    cases he : rest.isEmpty with
    | true => exact hm
    | false =>
      cases rest with
      | nil => cases he
      | cons b bs =>
        rw [if_neg (by decide)]
        refine ⟨?_, ?_, ?_⟩
        · intro e
          have := congrArg List.length e
          rw [List.length_take, List.length_cons, List.length_nil] at this
          omega
        · show 0 * 65536 + (BitVec.ofNat 16 address).toNat + ((b :: bs).take bpl).length ≤ 2 ^ 32
          rw [List.length_take, BitVec.toNat_ofNat]
          have : (b :: bs).length ≤ 65536 := by omega
          omega
        · exact dumpRecs_plain bpl h1 more hm fuel _ _ (by rw [List.length_take, List.length_drop]; omega)

theorem dumpRecs_placed (bpl : Nat) (h1 : 1 ≤ bpl) (more : List Rec) (hm : placed (.linear 0) more = []) : ∀ (fuel address : Nat) (rest : List Byte),
    rest.length ≤ fuel → address + rest.length ≤ 65536 →
    placed (.linear 0) (dumpRecs bpl fuel address rest ++ more) = rest.mapIdx (fun i v => (address + i, v))
  | 0, _, rest, hf, _ => by
    have : rest = [] := List.eq_nil_of_length_eq_zero (by omega)
    rw [this]
    exact hm
  | fuel + 1, address, rest, hf, ha => by
    unfold dumpRecs
    cases he : rest.isEmpty with
    | true => rw [List.isEmpty_iff.1 he]; exact hm
    | false =>
      have hpos : 0 < rest.length := by
        cases rest with
        | nil => cases he
        | cons _ _ => exact Nat.succ_pos _
      rw [if_neg (by decide), List.cons_append]
      have ih := dumpRecs_placed bpl h1 more hm fuel (address + (rest.take bpl).length) (rest.drop bpl)
        (by rw [List.length_drop]; omega) (by rw [List.length_take, List.length_drop]; omega)
      show ((rest.take bpl).mapIdx fun i v => (Base.address (.linear 0) (BitVec.ofNat 16 address).toNat i, v)) ++ placed (.linear 0) _ = _
      rw [ih]
      have e : rest.mapIdx (fun i v => (address + i, v)) = (rest.take bpl ++ rest.drop bpl).mapIdx (fun i v => (address + i, v)) := by
        rw [List.take_append_drop]
      rw [e, List.mapIdx_append]
      congr 1
      · apply mapIdx_congr
        intro i hi v
        rw [List.length_take] at hi
        unfold Base.address
        have e1 : (BitVec.ofNat 16 address).toNat = address := by
          rw [BitVec.toNat_ofNat]
          exact Nat.mod_eq_of_lt (by omega)
        rw [e1]
        congr 1
        show (0 * 65536 + address + i) % 4294967296 = address + i
        rw [Nat.zero_mul, Nat.zero_add]
        exact Nat.mod_eq_of_lt (by omega)
      · apply mapIdx_congr
        intro i hi v
        congr 1
        omega

/-! ## C83 -/

theorem start_line (start last : Nat) (h1 : start < 65536) (h2 : last < 65536) :
    Line ([58] ++ [48, 52, 48, 48, 48, 48, 48, 51] ++ printHex start 4 ++ printHex last 4 ++
      printHex (lineChecksum (7 + (start / 256 % 256 + start % 256) + (last / 256 % 256 + last % 256))) 2)
      (.startSegment (BitVec.ofNat 16 start) (BitVec.ofNat 16 last)) := by
  refine ⟨[48, 52, 48, 48, 48, 48, 48, 51] ++ (printHex start 4 ++ (printHex last 4 ++
      printHex (lineChecksum (7 + (start / 256 % 256 + start % 256) + (last / 256 % 256 + last % 256))) 2)), by simp, ?_⟩
  have w : Writes [48, 52, 48, 48, 48, 48, 48, 51] [BitVec.ofNat 8 4, hi 0#16, lo 0#16, 3#8] := by
    rw [show hi 0#16 = 0#8 by decide, show lo 0#16 = 0#8 by decide]
    exact Writes.cons (x := 0) (y := 4) (by decide) (by decide) <| Writes.cons (x := 0) (y := 0) (by decide) (by decide) <|
      Writes.cons (x := 0) (y := 0) (by decide) (by decide) <| Writes.cons (x := 0) (y := 3) (by decide) (by decide) Writes.nil
  have h := writes_append w (writes_append (writes_four h1) (writes_append (writes_four h2) (writes_two
    (checksum_lt (7 + (start / 256 % 256 + start % 256) + (last / 256 % 256 + last % 256))))))
  rw [checksum_octets (Rec.startSegment (BitVec.ofNat 16 start) (BitVec.ofNat 16 last)).body] at h
  · exact h
  · show ((BitVec.ofNat 8 4 :: hi 0#16 :: lo 0#16 :: 3#8 :: [hi (BitVec.ofNat 16 start), lo (BitVec.ofNat 16 start), hi (BitVec.ofNat 16 last), lo (BitVec.ofNat 16 last)]).map
      BitVec.toNat).sum % 256 = _
    rw [show hi 0#16 = 0#8 by decide, show lo 0#16 = 0#8 by decide, hi_of h1, lo_of h1, hi_of h2, lo_of h2]
    simp only [List.map_cons, List.sum_cons, BitVec.toNat_ofNat, List.map_nil, List.sum_nil]
    omega

theorem eof_line : Line ([58] ++ [48, 48, 48, 48, 48, 48, 48, 49, 70, 70]) .eof :=
  ⟨_, rfl, Writes.cons (x := 0) (y := 0) (by decide) (by decide) <| Writes.cons (x := 0) (y := 0) (by decide) (by decide) <|
    Writes.cons (x := 0) (y := 0) (by decide) (by decide) <| Writes.cons (x := 0) (y := 1) (by decide) (by decide) <|
    Writes.cons (x := 15) (y := 15) (by decide) (by decide) Writes.nil⟩

/-- **C83 (partial: not up to the end of a flash of 64 KB, see `C83_dump_to_the_end_refused`).** What the bootloader sends as a dump of some bytes is
a hex file, and reading it gives the address and the bytes that were dumped, for every number of bytes per line from 1 to 255. -/
theorem C83_dump_read_back_partial {dig : Nat → Option Nat} (hd : Java dig) (bytesPerLine : Nat) (h1 : 1 ≤ bytesPerLine) (h2 : bytesPerLine ≤ 255)
    (start : Nat) (data : List Byte) (hne : data ≠ []) (hend : start + data.length < 65536) :
    readFromHex dig (dump bytesPerLine start data) = some (start, data) := by
  have hpos := List.length_pos_iff.mpr hne
  generalize hrs : dumpRecs bytesPerLine data.length start data ++ [Rec.startSegment (BitVec.ofNat 16 start) (BitVec.ofNat 16 (start + data.length))] = rs
  have hlast : Lines (lines (([58] ++ [48, 52, 48, 48, 48, 48, 48, 51] ++ printHex start 4 ++ printHex (start + data.length) 4 ++
      printHex (lineChecksum (7 + (start / 256 % 256 + start % 256) + ((start + data.length) / 256 % 256 + (start + data.length) % 256))) 2 ++ crlf) ++
      ([58] ++ [48, 48, 48, 48, 48, 48, 48, 49, 70, 70] ++ crlf)))
      [Rec.startSegment (BitVec.ofNat 16 start) (BitVec.ofNat 16 (start + data.length)), .eof] := by
    have hs := start_line start (start + data.length) (by omega) hend
    rw [lines_line _ _ (line_ascii hs)]
    refine Lines.cons hs ?_
    rw [← List.append_nil ([58] ++ [48, 48, 48, 48, 48, 48, 48, 49, 70, 70] ++ crlf), lines_line _ _ (line_ascii eof_line)]
    exact Lines.cons eof_line Lines.nil
  have hl : Lines (lines (dump bytesPerLine start data)) (rs ++ [.eof]) := by
    have := dumpLines_lines bytesPerLine h1 h2 data.length start data _ _ (Nat.le_refl _) (by omega) hlast
    rw [← hrs, List.append_assoc]
    unfold dump
    rw [List.append_assoc]
    exact this
  have hplain : Plain (.linear 0) rs := by rw [← hrs]; exact dumpRecs_plain bytesPerLine h1 [.startSegment _ _] trivial data.length start data (by omega)
  have hpl : placed (.linear 0) rs = data.mapIdx (fun i v => (start + i, v)) := by
    rw [← hrs]; exact dumpRecs_placed bytesPerLine h1 _ rfl _ _ _ (Nat.le_refl _) (by omega)
  have hkinds : ∀ r ∈ rs, r ≠ .eof ∧ r.Short := by
    intro r hr
    rw [← hrs] at hr
    rcases List.mem_append.1 hr with hr | hr
    · obtain ⟨o, bs, rfl, hb⟩ := dumpRecs_data _ _ _ _ r hr
      exact ⟨(fun h => by cases h), (by show bs.length ≤ 255; omega)⟩
    · rw [List.mem_singleton.1 hr]
      exact ⟨(fun h => by cases h), trivial⟩
  have hcont : ∀ a, content rs a = if start ≤ a then data[a - start]? else none := by
    intro a
    show lastAt (placed (.linear 0) rs) a = _
    rw [hpl, lastAt_mapIdx]
  have hcov : ∀ a, (content rs a).isSome ↔ start ≤ a ∧ a < start + data.length := by
    intro a
    rw [hcont]
    by_cases q : start ≤ a
    · rw [if_pos q]
      by_cases q2 : a < start + data.length
      · rw [List.getElem?_eq_getElem (by omega)]
        exact ⟨fun _ => ⟨q, q2⟩, fun _ => rfl⟩
      · rw [List.getElem?_eq_none (by omega)]
        exact ⟨(fun h => by cases h), fun h => absurd h.2 q2⟩
    · rw [if_neg q]
      exact ⟨(fun h => by cases h), fun h => absurd h.1 q⟩
  have hnd : ((placed (.linear 0) rs).map (·.1)).Nodup := by
    rw [hpl]
    have e : (data.mapIdx (fun i v => (start + i, v))).map (·.1) = (List.range data.length).map (start + ·) := by
      apply List.ext_getElem
      · simp
      · intro i _ _; simp
    rw [e]
    exact List.Pairwise.map _ (fun a b hab => by omega) List.nodup_range
  obtain ⟨s, image, r1, r2, r3, r4⟩ := C82_hex_file_partial hd (dump bytesPerLine start data) rs hl (fun r hr => (hkinds r hr).1)
    (fun r hr => (hkinds r hr).2) hplain (fun a ha => by have := (hcov a).1 ha; omega) hnd
  have q1 := r2 start ((hcov _).2 ⟨Nat.le_refl _, by omega⟩)
  have q2 := r2 (start + data.length - 1) ((hcov _).2 ⟨by omega, by omega⟩)
  have hine : image ≠ [] := by
    intro e
    rw [e, List.length_nil] at q1
    omega
  obtain ⟨q3, q4⟩ := r3 hine
  have q3 := (hcov _).1 q3
  have q4 := (hcov _).1 q4
  have es : s = start := by omega
  subst es
  have el : image.length = data.length := by omega
  rw [r1]
  congr 2
  apply List.ext_getElem?
  intro i
  by_cases hi : i < data.length
  · rw [r4 i (by omega), hcont, if_pos (Nat.le_add_right ..), Nat.add_sub_cancel_left, List.getElem?_eq_getElem hi]
    rfl
  · rw [List.getElem?_eq_none (by omega), List.getElem?_eq_none (by omega)]

/-- Non-vacuity: a dump of five bytes, two per line. -/
example : dump 2 0x6fff [0x11#8, 0x22#8, 0xff#8, 0#8, 0xa5#8] =
    [":026FFF0011225D", ":02700100FF008E", ":01700300A5E7", ":040000036FFF700417", ":00000001FF"].flatMap
      (fun l => l.toList.map Char.toNat ++ [13, 10]) := by decide +kernel

theorem reads_even {dig : Nat → Option Nat} {cs : List Nat} {bs : List Byte} (h : Reads dig cs bs) : cs.length % 2 = 0 := by
  induction h with
  | nil => rfl
  | cons _ _ ih => rw [List.length_cons, List.length_cons]; omega

theorem mem_lines_dump (bpl : Nat) (h1 : 1 ≤ bpl) (h2 : bpl ≤ 255) (l more : List Nat) (hl : l ∈ lines more) :
    ∀ (fuel address : Nat) (rest : List Byte), rest.length ≤ fuel → address + rest.length ≤ 65536 → l ∈ lines (dumpLines bpl fuel address rest ++ more)
  | 0, _, _, _, _ => hl
  | fuel + 1, address, rest, hf, ha => by
    unfold dumpLines
    cases he : rest.isEmpty with
    | true => exact hl
    | false =>
      have hpos : 0 < rest.length := by
        cases rest with
        | nil => cases he
        | cons _ _ => exact Nat.succ_pos _
      rw [if_neg (by decide)]
      dsimp only
      have hline := data_line address (rest.take bpl) (by omega) (by rw [List.length_take]; omega)
      rw [List.append_assoc _ _ more, lines_line _ _ (line_ascii hline)]
      exact List.mem_cons_of_mem _ (mem_lines_dump bpl h1 h2 l more hl fuel _ _ (by rw [List.length_drop]; omega)
        (by rw [List.length_take, List.length_drop]; omega))

/-- **C83, finding.** A dump up to the end of a flash of 64 KB is not a hex file: the record after the data gets an address with five digits, and
the reader refuses the file. -/
theorem C83_dump_to_the_end_refused (dig : Nat → Option Nat) (bytesPerLine : Nat) (h1 : 1 ≤ bytesPerLine) (h2 : bytesPerLine ≤ 255)
    (start : Nat) (data : List Byte) (hne : data ≠ []) (hend : start + data.length = 65536) :
    readFromHex dig (dump bytesPerLine start data) = none := by
  have hpos := List.length_pos_iff.mpr hne
  cases hr : readFromHex dig (dump bytesPerLine start data) with
  | none => rfl
  | some x =>
    exfalso
    obtain ⟨front, last, e, ⟨bs, ⟨hc, -⟩⟩, hf⟩ := C82_only_complete_files dig _ x hr
    generalize hll : [58] ++ [48, 52, 48, 48, 48, 48, 48, 51] ++ printHex start 4 ++ printHex (start + data.length) 4 ++
      printHex (lineChecksum (7 + (start / 256 % 256 + start % 256) + ((start + data.length) / 256 % 256 + (start + data.length) % 256))) 2 = l
    have hlen : l.length = 20 := by
      rw [← hll, hend, printHex_five, printHex_four (by omega), printHex_two (checksum_lt _)]
      rfl
    have hch : ∀ c ∈ l, c ≠ 10 ∧ c ≠ 13 := by
      rw [← hll, hend, printHex_five]
      intro c hc
      simp only [List.mem_append] at hc
      rcases hc with (((hc | hc) | hc) | hc) | hc
      · rw [List.mem_singleton.1 hc]; decide
      · exact (by decide : ∀ c ∈ [48, 52, 48, 48, 48, 48, 48, 51], c ≠ 10 ∧ c ≠ 13) c hc
      · exact writes_ascii (writes_four (by omega)) c hc
      · exact (by decide : ∀ c ∈ [49, 48, 48, 48, 48], c ≠ 10 ∧ c ≠ 13) c hc
      · exact writes_ascii (writes_two (checksum_lt _)) c hc
    have hm : l ∈ lines (dump bytesPerLine start data) := by
      unfold dump
      dsimp only
      rw [hll, List.append_assoc]
      refine mem_lines_dump bytesPerLine h1 h2 l _ ?_ _ _ _ (Nat.le_refl _) (by omega)
      rw [lines_line _ _ hch]
      exact List.mem_cons_self ..
    have hm' : l ∈ front ++ [last] := by
      rw [← e, List.mem_filter]
      refine ⟨hm, ?_⟩
      cases l with
      | nil => cases hlen
      | cons _ _ => rfl
    have : ∃ bs, Checked dig l bs := by
      rcases List.mem_append.1 hm' with g | g
      · obtain ⟨bs, hb, -⟩ := hf l g
        exact ⟨bs, hb⟩
      · rw [List.mem_singleton.1 g]
        exact ⟨bs, hc⟩
    obtain ⟨bs', cs, hl, hrd, -⟩ := this
    have := reads_even hrd
    rw [hl, List.length_cons] at hlen
    omega

/-- Non-vacuity: the last three bytes of the flash. -/
example : readFromHex digit (dump 16 0xfffd [1#8, 2#8, 3#8]) = none ∧
    readFromHex digit (dump 16 0xfffc [1#8, 2#8, 3#8]) = some (0xfffc, [1#8, 2#8, 3#8]) := by decide +kernel

end Verif.Boot.Hex
