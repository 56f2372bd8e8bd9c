import Verif.Gas.Sgp4x
import Verif.Gas.Props
import Verif.I2c.Props71

/-!
# C102: the air quality sensor SGP4x, for every history of calls
-/

namespace Verif.Gas

open Verif Verif.I2c

/-! ## Specification -/

/-- A word as the sensor wants and gives it: the high byte first, then the CRC of the data sheet (polynomial 0x31, start
value 0xff). -/
def sealed (w : Word) : List Byte :=
  let hi := BitVec.ofNat 8 (w.toNat / 256)
  let lo := BitVec.ofNat 8 w.toNat
  [hi, lo, Crc.Spec.crcL 0x31#8 0xff#8 [hi, lo]]

/-- What a call asks of the sensor: the command, its parameters and the number of bytes of the answer. Without
compensation the parameters are those of 50 % and 25 °C. -/
def request : AirCall → Word × List Byte × Nat
  | .init _ => (0x2612#16, sealed 0x8000#16 ++ sealed 0x6666#16, 3)
  | .condition => (0x2612#16, sealed 0x8000#16 ++ sealed 0x6666#16, 3)
  | .selfTest => (0x280e#16, [], 3)
  | .measure none => (0x2619#16, sealed 0x8000#16 ++ sealed 0x6666#16, 6)
  | .measure (some (rh, t)) => (0x2619#16, sealed rh ++ sealed t, 6)
  | .serial _ => (0x3682#16, [], 9)
  | .heaterOff => (0x3615#16, [], 0)
  | .feature => (0x202f#16, [], 3)

/-- The answer to a call: how the exchange ended, and the bytes. -/
structure Answer where
  res : Sgp
  bytes : List Byte

/-- The exchange on the bus: the command is written; if every byte of it was taken, the answer is read; it is a success if
it is complete and every checksum matches. `t` is what was on the bus before, `ev` what the exchange puts on it. -/
def Exchange (E : Env) (t : List BusEv) (cmd : Word) (par : List Byte) (size : Nat) (ev : List BusEv) (a : Answer) : Prop :=
  let c := [BitVec.ofNat 8 (cmd.toNat / 256), BitVec.ofNat 8 cmd.toNat] ++ par
  ∃ ev1 ev2 o k, ev = ev1 ++ ev2 ∧ FromSlaves E t ev ∧ Transaction 0x59#8 c 0 ev1 o k [] ∧
    (k ≠ c.length → ev2 = [] ∧ a.res = .sendError) ∧
    (k = c.length → size = 0 → ev2 = [] ∧ a.res = .success) ∧
    (k = c.length → size ≠ 0 → ∃ o2 k2, Transaction 0x59#8 [] size ev2 o2 k2 a.bytes ∧
      (a.res = .success ↔ a.bytes.length = size ∧ WordsChecked 0xff#8 a.bytes) ∧
      (a.res = .readError ↔ a.bytes.length ≠ size) ∧
      (a.res = .crc8Mismatch ↔ a.bytes.length = size ∧ ¬ WordsChecked 0xff#8 a.bytes))

/-- The exchanges of a history of calls, from the bus `t` to the bus `t'`. -/
inductive Exchanges (E : Env) : List BusEv → List AirCall → List Answer → List BusEv → Prop
  | nil (t) : Exchanges E t [] [] t
  | cons {t ev t' c cs a as} : Exchange E t (request c).1 (request c).2.1 (request c).2.2 ev a →
      Exchanges E (t ++ ev) cs as t' → Exchanges E t (c :: cs) (a :: as) t'

/-- The result of the call: only the self test looks into the answer. -/
def result : AirCall → Answer → Sgp
  | .selfTest, a =>
    if a.res ≠ .success then a.res
    else if (byteAt a.bytes 1).getLsbD 0 then .vocPixelError
    else if (byteAt a.bytes 1).getLsbD 1 then .noxPixelError
    else .success
  | _, a => a.res

/-- A word of an answer. -/
def wordAt (b : List Byte) (i : Nat) : Word := BitVec.ofNat 16 (256 * (byteAt b i).toNat + (byteAt b (i + 1)).toNat)

/-- What a user knows: the sampling interval, the pairs of raw values measured since the last `init`, and the feature set. -/
structure Known where
  ms : U32
  raws : List (Word × Word)
  feature : Word

/-- A call and its answer. -/
def learn (k : Known) (x : AirCall × Answer) : Known :=
  match x.1 with
  | .init ms => { k with ms := ms, raws := [] }
  | .measure _ =>
    if x.2.res = .success then { k with raws := k.raws ++ [(wordAt x.2.bytes 0, wordAt x.2.bytes 3)] } else k
  | .feature => if x.2.res = .success then { k with feature := wordAt x.2.bytes 0 } else k
  | _ => k

/-- A history of calls and answers; a new object samples every second. -/
def known (xs : List (AirCall × Answer)) : Known := xs.foldl learn ⟨1000#32, [], 0#16⟩

/-- The gas index of a sequence of raw values: -1, and then what the algorithm gives, started with the sampling interval
and fed with the values in their order. -/
noncomputable def gas (F : Flt) (P : Par (Option ℝ)) (nox : Bool) (ms : U32) (raws : List Word) : Par (Option ℝ) × Int :=
  raws.foldl (fun s r => process (floats F) s.1 r.toNat)
    (initWith (floats F) P nox ((floats F).div ((floats F).ofInt ms.toNat) ((floats F).ofInt 1000)), -1)

/-- A call takes whole seconds as its sampling interval, 1 to 10. -/
def AirCall.Whole : AirCall → Prop
  | .init ms => ∃ n : Nat, 1 ≤ n ∧ n ≤ 10 ∧ ms.toNat = 1000 * n
  | _ => True

/-! ## Lemmas -/

variable {F : Flt}

/-- The object holds what is known. -/
structure Holds (F : Flt) (a : Air (Option ℝ)) (k : Known) : Prop where
  feature : a.st.feature = k.feature
  rawVoc : a.st.voc = (k.raws.getLast?.map Prod.fst).getD 0#16
  rawNox : a.st.nox = (k.raws.getLast?.map Prod.snd).getD 0#16
  voc : ∃ P, (a.voc, a.vocIndex) = gas F P false k.ms (k.raws.map Prod.fst)
  nox : ∃ P, (a.nox, a.noxIndex) = gas F P true k.ms (k.raws.map Prod.snd)

theorem new_holds (h : Ieee F) (p q : Par (Option ℝ)) : Holds F (airNew (floats F) p q) ⟨1000#32, [], 0#16⟩ := by
  have e : (floats F).div ((floats F).ofInt ((1000#32 : U32).toNat : ℤ)) ((floats F).ofInt 1000) = (floats F).ofInt 1 := by
    rw [show (((1000#32 : U32).toNat : ℕ) : ℤ) = 1000 from rfl, ofInt_eq F h 1000 (by decide), ofInt_eq F h 1 (by decide),
      div_eq F _ _ (by norm_num)]
    congr 1
    rw [show (((1000 : ℤ) : ℝ) / ((1000 : ℤ) : ℝ)) = ((1 : ℤ) : ℝ) by norm_num]
    exact rnd_int h 1 (by decide)
  refine ⟨rfl, rfl, rfl, ⟨p, ?_⟩, ⟨q, ?_⟩⟩
  · unfold gas airNew
    simp only [List.map_nil, List.foldl_nil]
    rw [e]
  · unfold gas airNew
    simp only [List.map_nil, List.foldl_nil]
    rw [e]

theorem gas_snoc (P : Par (Option ℝ)) (nox : Bool) (ms : U32) (l : List Word) (w : Word) :
    gas F P nox ms (l ++ [w]) = process (floats F) (gas F P nox ms l).1 w.toNat := by
  unfold gas
  rw [List.foldl_append]
  rfl

/-- An exchange of the driver. -/
theorem exchange (E : Env) (hE : SingleMaster E) (h : Hw) (hi : Idle h) (cmd : Word) (par : List Byte) (size : Byte)
    (h3 : size.toNat % 3 = 0) :
    ∃ h' a ev, Returns (sgpRead E h cmd par size) (h', a.res, a.bytes) ∧ Idle h' ∧ h'.trace = h.trace ++ ev ∧
      Exchange E h.trace cmd par size.toNat ev a := by
  obtain ⟨r, ev, o, k, ev2, g1, g2, g3, g4, g5, g6, g7, g8⟩ := C71_sgp_read_partial E hE h hi cmd par size
  obtain ⟨h', res, b⟩ := r
  have hs : size = 0#8 ↔ size.toNat = 0 := by
    constructor
    · rintro rfl; rfl
    · intro q; exact BitVec.eq_of_toNat_eq q
  refine ⟨h', ⟨res, b⟩, ev ++ ev2, g1, g2, by rw [g3, List.append_assoc], ev, ev2, o, k, rfl, g4, g5, g6,
    fun a b => g7 a (hs.2 b), fun a b => ?_⟩
  obtain ⟨o2, k2, q1, q2, q3, q4⟩ := g8 a (fun q => b (hs.1 q))
  refine ⟨o2, k2, q1, ?_, q3, ?_⟩
  · rw [q2]; simp only [h3, true_and]
  · rw [q4]; simp only [h3, true_and]

theorem sealed_default : [0x80#8, 0x00#8, 0xa2#8, 0x66#8, 0x66#8, 0x93#8] = sealed 0x8000#16 ++ sealed 0x6666#16 := by
  decide +kernel

theorem sealed_eq (w : Word) : (let a : List Byte := [(w >>> 8).truncate 8, w.truncate 8]
    a ++ [Crc.sgp4xCrc8 a]) = sealed w := by
  have e1 : ((w >>> 8).truncate 8 : Byte) = BitVec.ofNat 8 (w.toNat / 256) := by
    apply BitVec.eq_of_toNat_eq
    simp [BitVec.toNat_ushiftRight, Nat.shiftRight_eq_div_pow]
  have e2 : (w.truncate 8 : Byte) = BitVec.ofNat 8 w.toNat := by
    apply BitVec.eq_of_toNat_eq
    simp
  dsimp only
  rw [e1, e2, (Crc.C47_sensirion_crc8_standard _).2.2]
  rfl

theorem params_request (comp : Option (Word × Word)) : sgpParams comp = (request (.measure comp)).2.1 := by
  cases comp with
  | none => exact sealed_default
  | some c =>
    obtain ⟨rh, t⟩ := c
    show _ = sealed rh ++ sealed t
    rw [← sealed_eq rh, ← sealed_eq t]
    rfl

/-- One call. -/
theorem call_holds (E : Env) (hE : SingleMaster E) (h : Hw) (hi : Idle h) (a : Air (Option ℝ)) (k : Known)
    (ha : Holds F a k) (c : AirCall) :
    ∃ h' a' ans ev, Returns (fun m => airCall (floats F) E h a m c) (h', a', result c ans) ∧ Idle h' ∧
      h'.trace = h.trace ++ ev ∧ Exchange E h.trace (request c).1 (request c).2.1 (request c).2.2 ev ans ∧
      Holds F a' (learn k (c, ans)) := by
  cases c with
  | init ms =>
    obtain ⟨h', ans, ev, g1, g2, g3, g4⟩ := exchange E hE h hi 0x2612#16 (sealed 0x8000#16 ++ sealed 0x6666#16) 3#8 (by decide)
    rw [← sealed_default] at g1
    refine ⟨h', _, ans, ev, (g1.map fun x => (x.1, x.2.1)).map _, g2, g3, g4, ha.feature, rfl, rfl, ⟨a.voc, rfl⟩, ⟨a.nox, rfl⟩⟩
  | condition =>
    obtain ⟨h', ans, ev, g1, g2, g3, g4⟩ := exchange E hE h hi 0x2612#16 (sealed 0x8000#16 ++ sealed 0x6666#16) 3#8 (by decide)
    rw [← sealed_default] at g1
    exact ⟨h', _, ans, ev, (g1.map fun x => (x.1, x.2.1)).map _, g2, g3, g4, ha⟩
  | selfTest =>
    obtain ⟨h', ans, ev, g1, g2, g3, g4⟩ := exchange E hE h hi 0x280e#16 [] 3#8 (by decide)
    have bits : ∀ x : Byte, (x &&& 0x1#8 ≠ 0#8 ↔ x.getLsbD 0 = true) ∧ (x &&& 0x2#8 ≠ 0#8 ↔ x.getLsbD 1 = true) := by decide +kernel
    have hb := bits (byteAt ans.bytes 1)
    have e : result .selfTest ans = (if ans.res ≠ .success then ans.res
        else if byteAt ans.bytes 1 &&& 0x1#8 ≠ 0#8 then .vocPixelError
        else if byteAt ans.bytes 1 &&& 0x2#8 ≠ 0#8 then .noxPixelError
        else .success) := by
      unfold result
      simp only [hb.1, hb.2]
    refine ⟨h', a, ans, ev, ?_, g2, g3, g4, ha⟩
    rw [e]
    exact (g1.map fun x => (x.1, if x.2.1 ≠ Sgp.success then x.2.1
      else if byteAt x.2.2 1 &&& 0x1#8 ≠ 0#8 then .vocPixelError
      else if byteAt x.2.2 1 &&& 0x2#8 ≠ 0#8 then .noxPixelError
      else .success)).map fun x => (x.1, a, x.2)
  | measure comp =>
    obtain ⟨h', ans, ev, g1, g2, g3, g4⟩ := exchange E hE h hi 0x2619#16 (sgpParams comp) 6#8 (by decide)
    have g5 := (C71_sgp_values E h h' a.st ans.res ans.bytes).1 comp g1
    have g6 := g5.map fun x => if x.2.2 ≠ Sgp.success then (x.1, a, x.2.2)
      else (x.1, (⟨x.2.1, (process (floats F) a.voc x.2.1.voc.toNat).2, (process (floats F) a.nox x.2.1.nox.toNat).2,
        (process (floats F) a.voc x.2.1.voc.toNat).1, (process (floats F) a.nox x.2.1.nox.toNat).1⟩ : Air (Option ℝ)), x.2.2)
    rw [params_request] at g4
    have ex : Exchange E h.trace (request (.measure comp)).1 (request (.measure comp)).2.1 (request (.measure comp)).2.2 ev ans := by
      rcases comp with _ | ⟨rh, t⟩ <;> exact g4
    by_cases hr : ans.res = .success
    · simp only [hr, if_true, ne_eq, not_true_eq_false, if_false] at g6
      refine ⟨h', ⟨⟨wordAt ans.bytes 0, wordAt ans.bytes 3, a.st.feature⟩,
        (process (floats F) a.voc (wordAt ans.bytes 0).toNat).2, (process (floats F) a.nox (wordAt ans.bytes 3).toNat).2,
        (process (floats F) a.voc (wordAt ans.bytes 0).toNat).1, (process (floats F) a.nox (wordAt ans.bytes 3).toNat).1⟩,
        ans, ev, ?_, g2, g3, ex, ?_⟩
      · show Returns _ (h', _, ans.res)
        rw [hr]
        exact g6
      · unfold learn
        dsimp only
        rw [if_pos hr]
        obtain ⟨P, hP⟩ := ha.voc
        obtain ⟨Q, hQ⟩ := ha.nox
        refine ⟨ha.feature, by simp [wordAt], by simp [wordAt], ⟨P, ?_⟩, ⟨Q, ?_⟩⟩
        · dsimp only
          rw [List.map_append, List.map_cons, List.map_nil, gas_snoc, ← hP]
        · dsimp only
          rw [List.map_append, List.map_cons, List.map_nil, gas_snoc, ← hQ]
    · simp only [if_neg hr, ne_eq, hr, not_false_eq_true, if_true] at g6
      refine ⟨h', a, ans, ev, g6, g2, g3, ex, ?_⟩
      unfold learn
      dsimp only
      rw [if_neg hr]
      exact ha
  | serial l =>
    obtain ⟨h', ans, ev, g1, g2, g3, g4⟩ := exchange E hE h hi 0x3682#16 [] 9#8 (by decide)
    have g5 := (C71_sgp_values E h h' a.st ans.res ans.bytes).2.2.2 l g1
    exact ⟨h', a, ans, ev, g5.map fun x => (x.1, a, x.2.1), g2, g3, g4, ha⟩
  | heaterOff =>
    obtain ⟨h', ans, ev, g1, g2, g3, g4⟩ := exchange E hE h hi 0x3615#16 [] 0#8 (by decide)
    exact ⟨h', a, ans, ev, (g1.map fun x => (x.1, x.2.1)).map _, g2, g3, g4, ha⟩
  | feature =>
    obtain ⟨h', ans, ev, g1, g2, g3, g4⟩ := exchange E hE h hi 0x202f#16 [] 3#8 (by decide)
    have g5 := (C71_sgp_values E h h' a.st ans.res ans.bytes).2.1 g1
    have g6 := g5.map fun x => (x.1, (⟨x.2.1, a.vocIndex, a.noxIndex, a.voc, a.nox⟩ : Air (Option ℝ)), x.2.2)
    refine ⟨h', _, ans, ev, g6, g2, g3, g4, ?_⟩
    unfold learn
    dsimp only
    by_cases hr : ans.res = .success
    · rw [if_pos hr, if_pos hr]
      exact ⟨rfl, ha.rawVoc, ha.rawNox, ha.voc, ha.nox⟩
    · rw [if_neg hr, if_neg hr]
      exact ha

/-- A history of calls. -/
theorem run_holds (E : Env) (hE : SingleMaster E) : ∀ (cs : List AirCall) (h : Hw) (a : Air (Option ℝ)) (k : Known),
    Idle h → Holds F a k → ∃ h' a' log, Returns (fun m => airRun (floats F) E h a m cs) (h', a', List.zipWith result cs log) ∧
      Idle h' ∧ Exchanges E h.trace cs log h'.trace ∧ Holds F a' ((cs.zip log).foldl learn k) := by
  intro cs
  induction cs with
  | nil => intro h a k hi ha; exact ⟨h, a, [], Returns.pure _, hi, .nil _, ha⟩
  | cons c cs ih =>
    intro h a k hi ha
    obtain ⟨h', a', ans, ev, g1, g2, g3, g4, g5⟩ := call_holds E hE h hi a k ha c
    obtain ⟨h2, a2, log, q1, q2, q3, q4⟩ := ih h' a' _ g2 g5
    refine ⟨h2, a2, ans :: log, ?_, q2, .cons g4 (g3 ▸ q3), q4⟩
    refine g1.bind (g := fun m x => (airRun (floats F) E x.1 x.2.1 m cs).map fun y => (y.1, y.2.1, x.2.2 :: y.2.2)) ?_
    exact q1.map fun y => (y.1, y.2.1, result c ans :: y.2.2)

theorem interval_whole (h : Ieee F) (n : Nat) (n10 : n ≤ 10) (ms : U32) (hm : ms.toNat = 1000 * n) :
    (floats F).div ((floats F).ofInt ms.toNat) ((floats F).ofInt 1000) = some (((n : ℤ) : ℝ)) := by
  rw [hm, ofInt_eq F h _ (by rw [abs_le]; constructor <;> (push_cast; omega)), ofInt_eq F h 1000 (by decide),
    div_eq F _ _ (by norm_num)]
  congr 1
  rw [show (((1000 * n : ℕ) : ℤ) : ℝ) / ((1000 : ℤ) : ℝ) = (((n : ℤ)) : ℝ) by push_cast; field_simp]
  exact rnd_int h n (by rw [abs_le]; constructor <;> omega)

theorem gas_after (h : Ieee F) (P : Par (Option ℝ)) (nox : Bool) (n : Nat) (n10 : n ≤ 10) (ms : U32)
    (hm : ms.toNat = 1000 * n) (l : List Word) :
    (gas F P nox ms l).1 = after F P (.init nox n :: l.map fun w => .process w.toNat) := by
  have base : ∀ (l : List Word) (s : Par (Option ℝ) × Int),
      (l.foldl (fun s r => process (floats F) s.1 r.toNat) s).1 = after F s.1 (l.map fun w => .process w.toNat) := by
    intro l
    induction l with
    | nil => intro s; rfl
    | cons w l ih => intro s; exact ih _
  unfold gas
  rw [base, interval_whole h n n10 ms hm]
  rfl

theorem measured_process (l : List Word) (nox : Bool) (n : ℤ) :
    measured (.init nox n :: l.map fun w => .process w.toNat) = l.length ∧
      interval (.init nox n :: l.map fun w => .process w.toNat) = n := by
  have e : ∀ (l : List Word) (k : ℕ) (s : ℤ), (l.map fun w => Call.process w.toNat).foldl nextMeasured k = k + l.length ∧
      (l.map fun w => Call.process w.toNat).foldl nextInterval s = s := by
    intro l
    induction l with
    | nil => intro k s; exact ⟨rfl, rfl⟩
    | cons w l ih =>
      intro k s
      have := ih (k + 1) s
      refine ⟨?_, this.2⟩
      show ((l.map fun w => Call.process w.toNat).foldl nextMeasured (k + 1)) = _
      rw [this.1, List.length_cons]
      omega
  have := e l 0 n
  refine ⟨?_, this.2⟩
  show ((l.map fun w => Call.process w.toNat).foldl nextMeasured 0) = _
  rw [this.1]
  omega

/-- The index of a sequence of raw values, with an interval of whole seconds. -/
theorem gas_range (h : Ieee F) (P : Par (Option ℝ)) (nox : Bool) (n : Nat) (n1 : 1 ≤ n) (n10 : n ≤ 10) (ms : U32)
    (hm : ms.toNat = 1000 * n) (l : List Word) :
    (l = [] → (gas F P nox ms l).2 = -1) ∧
      (l ≠ [] → (l.length - 1) * n ≤ 45 → (gas F P nox ms l).2 = 0) ∧
      (45 < (l.length - 1) * n → 1 ≤ (gas F P nox ms l).2 ∧ (gas F P nox ms l).2 ≤ 500) := by
  rcases List.eq_nil_or_concat l with rfl | ⟨l, w, rfl⟩
  · exact ⟨fun _ => rfl, fun q => absurd rfl q, fun q => by simp at q⟩
  · have hp := C94_index_partial h P nox n (by omega) (by omega) (l.map fun w => Call.process w.toNat)
      (by intro c hc; obtain ⟨w, _, rfl⟩ := List.mem_map.1 hc; trivial) w.toNat
    obtain ⟨e1, e2⟩ := measured_process l nox n
    simp only [e1, e2] at hp
    rw [List.concat_eq_append, gas_snoc, gas_after h P nox n n10 ms hm]
    have hl : (l ++ [w]).length - 1 = l.length := by simp
    rw [hl]
    refine ⟨fun q => by simp at q, fun _ q => hp.1 (by exact_mod_cast q), fun q => hp.2 (by exact_mod_cast q)⟩

theorem learn_whole (cs : List AirCall) (hc : ∀ c ∈ cs, c.Whole) : ∀ (log : List Answer) (k : Known),
    (∃ n : Nat, 1 ≤ n ∧ n ≤ 10 ∧ k.ms.toNat = 1000 * n) →
    ∃ n : Nat, 1 ≤ n ∧ n ≤ 10 ∧ ((cs.zip log).foldl learn k).ms.toNat = 1000 * n := by
  induction cs with
  | nil => intro log k hk; exact hk
  | cons c cs ih =>
    intro log k hk
    cases log with
    | nil => exact hk
    | cons a log =>
      refine ih (fun c hm => hc c (by simp [hm])) log _ ?_
      have hw := hc c (by simp)
      cases c <;> try exact hk
      case init ms => exact hw
      case measure comp =>
        unfold learn
        dsimp only
        split <;> exact hk
      case feature =>
        unfold learn
        dsimp only
        split <;> exact hk

/-! ## Theorems -/

/-- **C102.** For every history of calls of a new object, on every bus with one master: every call returns; it makes one
exchange with the sensor, and its result is what that exchange gave. Afterwards `getVocIndexValue` and `getNoxIndexValue`
are the gas index of the raw values that were measured successfully since the last `init`, and only of those, each
processed once and in their order; the raw values and the feature set are the last ones received with matching checksums. -/
theorem C102_history_partial (hF : Ieee F) (E : Env) (hE : SingleMaster E) (h : Hw) (hi : Idle h) (p q : Par (Option ℝ))
    (cs : List AirCall) :
    ∃ h' a log, Returns (fun m => airRun (floats F) E h (airNew (floats F) p q) m cs) (h', a, List.zipWith result cs log) ∧
      Exchanges E h.trace cs log h'.trace ∧
      (let k := known (cs.zip log)
       (∃ P Q, airValues a = ((gas F P false k.ms (k.raws.map Prod.fst)).2, (gas F Q true k.ms (k.raws.map Prod.snd)).2,
          (((k.raws.getLast?.map Prod.fst).getD 0#16).toNat : ℤ), (((k.raws.getLast?.map Prod.snd).getD 0#16).toNat : ℤ))) ∧
       airFeature a = k.feature) := by
  obtain ⟨h', a, log, g1, g2, g3, g4⟩ := run_holds E hE cs h (airNew (floats F) p q) _ hi (new_holds hF p q)
  obtain ⟨P, hP⟩ := g4.voc
  obtain ⟨Q, hQ⟩ := g4.nox
  refine ⟨h', a, log, g1, g3, ⟨P, Q, ?_⟩, g4.feature⟩
  unfold airValues
  rw [g4.rawVoc, g4.rawNox]
  have e1 := congrArg Prod.snd hP
  have e2 := congrArg Prod.snd hQ
  dsimp only at e1 e2
  rw [e1, e2]
  rfl

/-- **C102.** If every `init` took a sampling interval of 1 to 10 whole seconds, both index values are -1 until the first
successful measurement, 0 as long as the measurements after the first cover at most 45 seconds, and one of 1, …, 500 from
then on — whatever the sensor and the bus do. -/
theorem C102_index_partial (hF : Ieee F) (E : Env) (hE : SingleMaster E) (h : Hw) (hi : Idle h) (p q : Par (Option ℝ))
    (cs : List AirCall) (hc : ∀ c ∈ cs, c.Whole) :
    ∃ h' a rs log, Returns (fun m => airRun (floats F) E h (airNew (floats F) p q) m cs) (h', a, rs) ∧
      Exchanges E h.trace cs log h'.trace ∧
      (let k := known (cs.zip log)
       let m := k.raws.length
       ∀ i, i = (airValues a).1 ∨ i = (airValues a).2.1 →
        (m = 0 → i = -1) ∧ (m ≠ 0 → (m - 1) * k.ms.toNat ≤ 45000 → i = 0) ∧
        (45000 < (m - 1) * k.ms.toNat → 1 ≤ i ∧ i ≤ 500)) := by
  obtain ⟨h', a, log, g1, g3, ⟨P, Q, g4⟩, -⟩ := C102_history_partial hF E hE h hi p q cs
  refine ⟨h', a, _, log, g1, g3, ?_⟩
  intro k m i hi
  obtain ⟨n, n1, n10, hn⟩ := learn_whole cs hc log ⟨1000#32, [], 0#16⟩ ⟨1, by omega, by omega, rfl⟩
  have key : ∀ (nox : Bool) (R : Par (Option ℝ)) (f : Word × Word → Word), i = (gas F R nox k.ms (k.raws.map f)).2 →
      (m = 0 → i = -1) ∧ (m ≠ 0 → (m - 1) * k.ms.toNat ≤ 45000 → i = 0) ∧
        (45000 < (m - 1) * k.ms.toNat → 1 ≤ i ∧ i ≤ 500) := by
    intro nox R f e
    have hr := gas_range hF R nox n n1 n10 k.ms hn (k.raws.map f)
    rw [← e, List.length_map] at hr
    obtain ⟨r1, r2, r3⟩ := hr
    have hk : k.ms.toNat = 1000 * n := hn
    have hx : (m - 1) * k.ms.toNat = 1000 * ((k.raws.length - 1) * n) := by
      rw [hk]; show (k.raws.length - 1) * _ = _; ring
    rw [hx]
    refine ⟨fun q => r1 ?_, fun q q2 => r2 ?_ (by omega), fun q => r3 (by omega)⟩
    · rw [List.map_eq_nil_iff]; exact List.length_eq_zero_iff.1 q
    · intro w
      rw [List.map_eq_nil_iff] at w
      exact q (by show k.raws.length = 0; rw [w]; rfl)
  rcases hi with e | e
  · exact key false P _ (by rw [e, g4])
  · exact key true Q _ (by rw [e, g4])

theorem zero_idle (h : Ieee F) (P : Par (Option ℝ)) (s : ℤ) (hd : P.dt = some 0) (hu : P.uptime = some 0)
    (hx : P.idx = some 0) : (process (floats F) P s).2 = 0 ∧ (process (floats F) P s).1.dt = some 0 ∧
      (process (floats F) P s).1.uptime = some 0 ∧ (process (floats F) P s).1.idx = some 0 := by
  have e : (floats F).le P.uptime ((floats F).ofInt 45) = true := by
    rw [hu, ofInt_eq F h 45 (by decide)]
    show decide ((0 : ℝ) ≤ ((45 : ℤ) : ℝ)) = true
    norm_num
  have z : F.rnd 0 = 0 := by simpa using rnd_int h 0 (by decide)
  have half : F.rnd (1 / 2 : ℝ) = 1 / 2 := by
    have := h.exact 1 1 (by decide) (by decide)
    simpa using this
  have hl : (floats F).lit (1 / 2) = some (1 / 2) := by
    show some (F.rnd ((1 / 2 : ℚ) : ℝ)) = _
    rw [show (((1 / 2 : ℚ)) : ℝ) = 1 / 2 by push_cast; ring, half]
  unfold process
  simp only [e, if_true]
  refine ⟨?_, hd, ?_, hx⟩
  · rw [hx, hl]
    show truncate (F.rnd (0 + 1 / 2)) = 0
    rw [zero_add, half]
    unfold truncate
    rw [if_neg (by norm_num), Int.floor_eq_iff]
    norm_num
  · rw [hu, hd]
    show some (F.rnd (0 + 0)) = _
    rw [add_zero, z]

/-- **C102.** After `init(0)` the sensor never gives an index: the time of the algorithm stands still, and both values are 0
after every number of successful measurements. -/
theorem C102_interval_zero (hF : Ieee F) (P : Par (Option ℝ)) (nox : Bool) (l : List Word) (hl : l ≠ []) :
    (gas F P nox 0#32 l).2 = 0 := by
  have z : F.rnd 0 = 0 := by simpa using rnd_int hF 0 (by decide)
  have hdt : (floats F).div ((floats F).ofInt ((0#32 : U32).toNat : ℤ)) ((floats F).ofInt 1000) = some 0 := by
    rw [show (((0#32 : U32).toNat : ℕ) : ℤ) = 0 from rfl, ofInt_eq F hF 0 (by decide), ofInt_eq F hF 1000 (by decide),
      div_eq F _ _ (by norm_num)]
    simp [z]
  have start : ∀ Q : Par (Option ℝ), (initInstances (floats F) Q).dt = Q.dt ∧
      (initInstances (floats F) Q).uptime = Q.uptime ∧ (initInstances (floats F) Q).idx = Q.idx := by
    intro Q
    unfold initInstances estSet moxSet scaledSet lowpassSet
    dsimp only
    split <;> exact ⟨rfl, rfl, rfl⟩
  have zero : (floats F).ofInt 0 = some 0 := by rw [ofInt_eq F hF 0 (by decide)]; simp
  have inv : ∀ (l : List Word) (s : Par (Option ℝ) × Int), s.1.dt = some 0 → s.1.uptime = some 0 → s.1.idx = some 0 →
      (l ≠ [] ∨ s.2 = 0) → (l.foldl (fun s r => process (floats F) s.1 r.toNat) s).2 = 0 := by
    intro l
    induction l with
    | nil => intro s _ _ _ q; exact q.resolve_left (fun q => q rfl)
    | cons w l ih =>
      intro s h1 h2 h3 _
      obtain ⟨a, b, c, d⟩ := zero_idle hF s.1 w.toNat h1 h2 h3
      exact ih _ b c d (Or.inr a)
  unfold gas
  rw [hdt]
  refine inv l _ ?_ ?_ ?_ (Or.inl hl)
  · unfold initWith reset
    dsimp only
    rw [(start _).1]
    split <;> rfl
  · unfold initWith reset
    dsimp only
    rw [(start _).2.1]
    exact zero
  · unfold initWith reset
    dsimp only
    rw [(start _).2.2]
    exact zero

/-- **C102.** A call other than `init` that does not succeed changes nothing. -/
theorem C102_failure (A : Arith α) (E : Env) (h h' : Hw) (a a' : Air α) (res : Sgp) (c : AirCall) (hc : ∀ ms, c ≠ .init ms)
    (hr : res ≠ .success) (hret : Returns (fun m => airCall A E h a m c) (h', a', res)) : a' = a := by
  obtain ⟨n, hn⟩ := hret
  have e := hn n (le_refl n)
  have other : ∀ {β : Type} (o : Option β) (f : β → Hw) (g : β → Sgp),
      o.map (fun x => (f x, a, g x)) = some (h', a', res) → a' = a := by
    intro β o f g q
    cases o with
    | none => cases q
    | some x => cases q; rfl
  cases c with
  | init ms => exact absurd rfl (hc ms)
  | condition => exact other _ _ _ e
  | selfTest => exact other _ _ _ e
  | serial l => exact other _ _ _ e
  | heaterOff => exact other _ _ _ e
  | measure comp =>
    dsimp only [airCall, airMeasure] at e
    cases hm : sgpMeasure E h a.st comp n with
    | none => rw [hm] at e; cases e
    | some x =>
      obtain ⟨h1, st, r⟩ := x
      rw [hm] at e
      simp only [Option.map_some] at e
      by_cases q : r = .success
      · rw [if_neg (by simpa using q)] at e
        cases e
        exact absurd q hr
      · rw [if_pos q] at e
        cases e
        rfl
  | feature =>
    dsimp only [airCall, sgpFeature] at e
    cases hm : sgpRead E h 0x202f#16 [] 3#8 n with
    | none => rw [hm] at e; cases e
    | some x =>
      obtain ⟨h1, r, b⟩ := x
      rw [hm] at e
      simp only [Option.map_some] at e
      by_cases q : r = .success
      · rw [if_neg (by simpa using q)] at e
        cases e
        exact absurd rfl hr
      · rw [if_pos q] at e
        cases e
        rfl

/-! ## The hypotheses are met -/

/-- A sensor that measures the same two words again and again; it answers the conditioning with their beginning. -/
def nose : Env := slave (fun _ => true) [0xbe#8, 0xef#8, 0x92#8, 0x12#8, 0x34#8, 0x37#8]

/-- `C102_history_partial` and `C102_index_partial` applied. -/
example (p q : Par (Option ℝ)) : ∃ h' a rs log,
    Returns (fun m => airRun (floats binary32) nose fresh (airNew (floats binary32) p q) m
      (.init 10000#32 :: List.replicate 7 (.measure none))) (h', a, rs) ∧
    Exchanges nose [] (.init 10000#32 :: List.replicate 7 (.measure none)) log h'.trace := by
  obtain ⟨h', a, rs, log, g1, g2, -⟩ := C102_index_partial binary32_ieee nose (slave_quiet _ _).2 fresh ⟨Or.inl rfl, rfl⟩ p q
    (.init 10000#32 :: List.replicate 7 (.measure none)) (by
      intro c hc
      rcases List.mem_cons.1 hc with rfl | hc
      · exact ⟨10, by decide, by decide, rfl⟩
      · rw [(List.mem_replicate.1 hc).2]; trivial)
  exact ⟨h', a, rs, log, g1, g2⟩

/-- Numbers without a value, to run the object: every index is 7. -/
def blank : Arith Unit := ⟨fun _ => (), fun _ => (), id, fun _ _ => (), fun _ _ => (), fun _ _ => (), fun _ _ => (), id, id,
  fun _ _ => false, fun _ _ => false, fun _ _ => false, fun _ => 7⟩

/-- The parameters of the algorithm in these numbers. -/
def blankPar : Par Unit := ⟨false, (), (), 0, (), (), (), (), (), (), (), (), (), (), (), false, (), (), (), (), (), (), (), (), (), (), (), (), (), (), (), (), (), (), (), (), (), false, (), (), ()⟩

/-- The calls give what the theorems say: after `init` the values are gone, after a measurement they are there, and a sensor
that does not answer leaves them. -/
example : (airRun blank nose fresh (airNew blank blankPar blankPar) 80 [.init 1000#32]).map (fun r => (airValues r.2.1, r.2.2)) =
    some ((-1, -1, 0, 0), [.success]) ∧
    (airRun blank nose fresh (airNew blank blankPar blankPar) 80 [.init 1000#32, .measure none, .heaterOff, .measure (some (1#16, 2#16)),
      .feature]).map (fun r => (airValues r.2.1, airFeature r.2.1, r.2.2)) =
    some ((7, 7, 0xbeef, 0x1234), 0xbeef#16, [.success, .success, .success, .success, .success]) ∧
    (airRun blank (slave (fun t => t.length < 40) [0xbe#8, 0xef#8, 0x92#8, 0x12#8, 0x34#8, 0x37#8]) fresh (airNew blank blankPar blankPar) 80
      [.init 1000#32, .measure none, .measure none, .feature]).map (fun r => (airValues r.2.1, airFeature r.2.1, r.2.2)) =
    some ((7, 7, 0xbeef, 0x1234), 0#16, [.success, .success, .sendError, .sendError]) := by
  decide +kernel

/-- `C102_interval_zero` applied. -/
example (P : Par (Option ℝ)) : (gas binary32 P false 0#32 (List.replicate 1000000 30000#16)).2 = 0 :=
  C102_interval_zero binary32_ieee P false _ (by rw [Ne, List.replicate_eq_nil_iff]; decide)

/-- `C102_failure` applied: nobody answers. -/
example (a' : Air Unit) (h' : Hw) (hr : Returns (fun m => airCall blank (slave (fun _ => false) []) fresh
    (airNew blank blankPar blankPar) m (.measure none)) (h', a', .sendError)) : a' = airNew blank blankPar blankPar :=
  C102_failure _ _ _ _ _ _ _ _ (by intro ms; exact AirCall.noConfusion) (by decide) hr

end Verif.Gas
