import Verif.TL4.EndToEnd

/-!
# Requests and answers over an unreliable bus: the composed system

The system of C03 (a repeating client, a bus that loses and duplicates telegrams, the device) extended
by the way back: the device transmits the answers of its application as numbered data telegrams and
repeats them, the bus loses and duplicates them, the client takes the telegram with the number it
expects, ignores the others and acknowledges what it has taken as often as it likes. The client
transmits its next request when the request before is acknowledged and answered (if it is one that
gets an answer). Everything the device does is the model of `TL4/Model.lean`
(sblib/src/eib/knx_tlayer4.cpp); client and bus are the environment.
-/

namespace Verif.TL4
open Knx Spec
variable {σ : Type}

/-- A frame that a client with address `p` takes for connection-oriented data: addressed to `p`, bits
7 and 6 of the transport control byte are 01. -/
def dataFor (p : Word) (f : List Byte) : Bool :=
  match f[3]?, f[4]?, f[6]? with
  | some d1, some d2, some tp => d1 ++ d2 == p && tp.extractLsb' 6 2 == 0b01#2
  | _, _, _ => false

/-- The data frames for `p` that a device step puts on the bus, whatever part of the device sends them. -/
def dataIn (p : Word) (o : List Out) : List (List Byte) := (o.filterMap frameOf).filter (dataFor p)

/-- The sequence number of a frame. -/
def numberIn (f : List Byte) : Nat := seqOf (f.getD 6 0#8)

/-- The answers of the application are data telegrams (bit 7 of byte 6 clear), and what it sends after
broadcasts and group telegrams has a zero transport part (bits 7 to 2). -/
structure AppPlain (A : App σ) : Prop where
  apci : ∀ a t l b, (A.processApci a t l b).2.2 = true → (A.processApci a t l b).2.1 6 &&& 0x80#8 = 0#8
  broadcast : ∀ a t l f b, (A.broadcast a t l).2 = some f → f b 6 &&& 0xFC#8 = 0#8
  group : ∀ a t l f b, (A.group a t l).2 = some f → f b 6 &&& 0xFC#8 = 0#8

/-- The client and what is known about the application's answers. -/
structure Client (σ : Type) where
  /-- the requests -/
  req : Nat → Buf
  /-- the telegram that acknowledges answer number k -/
  ack : Nat → Buf
  /-- which requests get an answer -/
  expects : Buf → Bool
  /-- the lengths with which the bus hands over a request -/
  lens : Buf → Nat → Prop
  /-- what is known about the application after the first i requests -/
  known : Nat → σ → Prop

/-- The application answers as the client expects: in all states that are known to be possible, which
include the next ones. -/
structure Expected (A : App σ) (S : Client σ) : Prop where
  answer : ∀ i a l b, S.known i a → S.lens (S.req i) l → (A.processApci a (S.req i) l b).2.2 = S.expects (S.req i)
  next : ∀ i a l b, S.known i a → S.lens (S.req i) l → S.known (i + 1) (A.processApci a (S.req i) l b).1
  broadcast : ∀ i a t l, S.known i a → S.known i (A.broadcast a t l).1
  group : ∀ i a t l, S.known i a → S.known i (A.group a t l).1

/-- Whatever else may happen to the device: as in C03, and nobody acknowledges the device's data in the
client's name, neither the rest of the device nor an answer to a connectionless request is a telegram
with a transport part, and a connectionless request does not lead to unknown states. -/
def ForeignD (A : App σ) (p : Word) (S : Client σ) (s : State σ) (op : Op) : Prop :=
  Foreign p s op ∧
  (∀ tel len, op = .rx tel len → UnicastTo s.ownAddr tel → src tel = p → ackLike tel = false) ∧
  (∀ fill, op = .userSend fill → ∀ b, fill b 6 &&& 0xFC#8 = 0#8) ∧
  (∀ tel len, op = .rx tel len → UnicastTo s.ownAddr tel → isConnectionless tel = true → ∀ b,
    (A.processApci s.app tel len b).2.2 = true → (A.processApci s.app tel len b).2.1 6 &&& 0xFC#8 = 0#8) ∧
  (∀ tel len, op = .rx tel len → UnicastTo s.ownAddr tel → isConnectionless tel = true → ∀ b i,
    S.known i s.app → S.known i (A.processApci s.app tel len b).1)

/-- The composed system with both directions. -/
structure Dialogue (σ : Type) where
  sys : Sys σ
  /-- data frames on their way to the client -/
  fromDevice : List (List Byte)
  /-- the client's acknowledgements on their way to the device -/
  acks : List Buf
  /-- the frames the client has taken -/
  got : List (List Byte)
  /-- what the application has executed: its state before, the telegram, the length -/
  executed : List (σ × Buf × Nat)

/-- The device part of a step. -/
def Dialogue.device (A : App σ) (p : Word) (z : Dialogue σ) (op : Op) : Dialogue σ :=
  { z with
    sys := z.sys.device A p op
    fromDevice := z.fromDevice ++ dataIn p (step A z.sys.dev op).2
    executed := z.executed ++ match op with
      | .rx t len => (delivered (step A z.sys.dev op).2).map fun _ => (z.sys.dev.app, t, len)
      | _ => [] }

/-- The number of requests before request `n` that get an answer. -/
def answersBefore (req : Nat → Buf) (expects : Buf → Bool) (n : Nat) : Nat :=
  ((List.range n).filter fun i => expects (req i)).length

/-- Steps of the dialogue. -/
inductive DStep (A : App σ) (p : Word) (S : Client σ) :
    Dialogue σ → Dialogue σ → Prop where
  /-- the client transmits (or repeats) its current request; it has all answers to the ones before -/
  | clientSend (z) (h : answersBefore S.req S.expects z.sys.current ≤ z.got.length) :
      DStep A p S z
        { z with sys := { z.sys with toDevice := z.sys.toDevice ++ [S.req z.sys.current] } }
  | lose (z a x b) (h : z.sys.toDevice = a ++ x :: b) :
      DStep A p S z { z with sys := { z.sys with toDevice := a ++ b } }
  | dup (z a x b) (h : z.sys.toDevice = a ++ x :: b) :
      DStep A p S z { z with sys := { z.sys with toDevice := a ++ x :: x :: b } }
  | loseAck (z a x b) (h : z.sys.toClient = a ++ x :: b) :
      DStep A p S z { z with sys := { z.sys with toClient := a ++ b } }
  | dupAck (z a x b) (h : z.sys.toClient = a ++ x :: b) :
      DStep A p S z { z with sys := { z.sys with toClient := a ++ x :: x :: b } }
  | loseData (z a x b) (h : z.fromDevice = a ++ x :: b) :
      DStep A p S z { z with fromDevice := a ++ b }
  | dupData (z a x b) (h : z.fromDevice = a ++ x :: b) :
      DStep A p S z { z with fromDevice := a ++ x :: x :: b }
  | loseAnswerAck (z a x b) (h : z.acks = a ++ x :: b) :
      DStep A p S z { z with acks := a ++ b }
  | dupAnswerAck (z a x b) (h : z.acks = a ++ x :: b) :
      DStep A p S z { z with acks := a ++ x :: x :: b }
  /-- the device receives the next request -/
  | receive (z t rest len) (h : z.sys.toDevice = t :: rest) (hl : S.lens t len) :
      DStep A p S z
        ({ z with sys := { z.sys with toDevice := rest } }.device A p (.rx t len))
  /-- the device receives the next acknowledgement of the client -/
  | receiveAck (z t rest len) (h : z.acks = t :: rest) :
      DStep A p S z ({ z with acks := rest }.device A p (.rx t len))
  /-- anything else happens to the device -/
  | other (z op) (h : ForeignD A p S z.sys.dev op) : DStep A p S z (z.device A p op)
  /-- the client receives an acknowledgement of a request -/
  | clientAck (z n rest) (h : z.sys.toClient = n :: rest) :
      DStep A p S z
        { z with sys := { z.sys with toClient := rest
                                     current := if n = z.sys.current % 16 then z.sys.current + 1
                                                else z.sys.current } }
  /-- the client receives a data frame: taken if it has the number of the next answer -/
  | clientData (z f rest) (h : z.fromDevice = f :: rest) :
      DStep A p S z
        { z with fromDevice := rest
                 got := if numberIn f = z.got.length % 16 then z.got ++ [f] else z.got }
  /-- the client acknowledges the last answer it has taken (once or again) -/
  | answerAck (z) (h : z.got ≠ []) :
      DStep A p S z { z with acks := z.acks ++ [S.ack (z.got.length - 1)] }

/-- Reachable states of the dialogue. -/
inductive DReach (A : App σ) (p : Word) (S : Client σ) (z0 : Dialogue σ) :
    Dialogue σ → Prop where
  | start : DReach A p S z0 z0
  | step (z z') : DReach A p S z0 z → DStep A p S z z' →
      DReach A p S z0 z'

/-- The client's acknowledgements: T_ACK from `p`, number k mod 16 for answer k. -/
structure Acks (p : Word) (ack : Nat → Buf) : Prop where
  src : ∀ k, src (ack k) = p
  isAck : ∀ k, isAck (ack k) = true
  seq : ∀ k, seqOf (ack k 6) = k % 16

/-- `f` is the frame that carries the application's answer `raw` to the request `t` as data telegram
number `j` to `p`: same length, same service and data, addressed to `p`, numbered; a standard frame that is
not marked as repeated and has the priority of the request. -/
structure IsAnswer (p : Word) (j : Nat) (t raw : Buf) (f : List Byte) : Prop where
  control : f.getD 0 0#8 = 0xB0#8 ||| (t 0 &&& 0x0C#8)
  length : f.length = 7 + (raw 5 &&& 15#8).toNat
  dest : f.getD 3 0#8 ++ f.getD 4 0#8 = (p : BitVec (8 + 8))
  numbered : (f.getD 6 0#8).extractLsb' 6 2 = 0b01#2
  number : seqOf (f.getD 6 0#8) = j % 16
  service : (f.getD 6 0#8).extractLsb' 0 2 = (raw 6).extractLsb' 0 2
  rest : ∀ i, i = 5 ∨ 7 ≤ i → i < f.length → f.getD i 0#8 = raw i

/-- The executed requests that get an answer, in order. -/
def answered (expects : Buf → Bool) (l : List (σ × Buf × Nat)) : List (σ × Buf × Nat) :=
  l.filter fun e => expects e.2.1

end Verif.TL4
