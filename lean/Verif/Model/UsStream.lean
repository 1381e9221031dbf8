import Verif.Model.S10Stream
/-
Model of the UltraScale AXI stream interfaces: xilinx/us/interface.py, `_run` of `RqSource`, `RqSink`, `RcSource`, `RcSink`, `CqSource`, `CqSink`,
`CcSource` and `CcSink`. The code of the four interfaces is the same except for where it puts things in `tuser`; here it is one function with the
interface as a parameter. The handshake is in Model/Handshake.
-/
namespace Pcie
namespace Us
open S10 (item signal)

/-- The interface: requester request, requester completion, completer request, completer completion. -/
inductive Kind
  | rq | rc | cq | cc
deriving DecidableEq, Repr

/-- The bus: `width` of `tdata`, width of `tuser`, `segs` segments. -/
structure Bus where
  kind : Kind
  width : Nat
  tuser : Nat
  segs : Nat
deriving DecidableEq, Repr

namespace Bus

/-- xilinx/us/interface.py:155-158: `byte_lanes`, with lanes of 32 bits. -/
def byteLanes (b : Bus) : Nat := b.width / 32

/-- xilinx/us/interface.py:163: `seg_byte_lanes`. -/
def lanes (b : Bus) : Nat := b.byteLanes / b.segs

/-- xilinx/us/interface.py:167-168 and 501-508, 701-708, 893-901, 1085-1092: the assertions. -/
def Accepted (b : Bus) : Prop :=
  (b.width = 64 ∨ b.width = 128 ∨ b.width = 256 ∨ b.width = 512) ∧
  match b.kind with
  | .rq => if b.width = 512 then b.tuser = 137 ∧ (b.segs = 1 ∨ b.segs = 2) else (b.tuser = 60 ∨ b.tuser = 62) ∧ b.segs = 1
  | .rc => if b.width = 512 then b.tuser = 161 ∧ (b.segs = 1 ∨ b.segs = 2 ∨ b.segs = 4) else b.tuser = 75 ∧ (b.segs = 1 ∨ b.segs = 2)
  | .cq => if b.width = 512 then b.tuser = 183 ∧ (b.segs = 1 ∨ b.segs = 2) else (b.tuser = 85 ∨ b.tuser = 88) ∧ b.segs = 1
  | .cc => if b.width = 512 then b.tuser = 81 ∧ (b.segs = 1 ∨ b.segs = 2) else b.tuser = 33 ∧ b.segs = 1

/-- xilinx/us/interface.py:504, 509, 704, 709, 897, 903, 1088, 1093: `discontinue_offset`. -/
def disc (b : Bus) : Nat :=
  match b.kind with
  | .rq => if b.width = 512 then 36 else 11
  | .rc => if b.width = 512 then 96 else 42
  | .cq => if b.width = 512 then 96 else 41
  | .cc => if b.width = 512 then 16 else 0

/-- xilinx/us/interface.py:505, 510, 705, 710, 898, 904, 1089, 1094: `parity_offset`. -/
def par (b : Bus) : Nat :=
  match b.kind with
  | .rq => if b.width = 512 then 73 else 28
  | .rc => if b.width = 512 then 97 else 43
  | .cq => if b.width = 512 then 119 else 53
  | .cc => if b.width = 512 then 17 else 1

/-- xilinx/us/interface.py:896, 902: `byte_en_offset`; 757 for `RcSource`. The others have no byte enables for each dword. -/
def ben (b : Bus) : Option Nat :=
  match b.kind with
  | .rq => none
  | .rc => some 0
  | .cq => some (if b.width = 512 then 16 else 8)
  | .cc => none

/-- xilinx/us/interface.py:544, 739, 936, 1123: the bits `is_sop` of 512-bit interfaces. -/
def sop (b : Bus) : Nat :=
  match b.kind with
  | .rq => 20
  | .rc => 64
  | .cq => 80
  | .cc => 0

/-- xilinx/us/interface.py:546, 741, 938, 1125: the fields `is_sop_ptr` of 512-bit interfaces. -/
def sopPtr (b : Bus) : Nat :=
  match b.kind with
  | .rq => 22
  | .rc => 68
  | .cq => 82
  | .cc => 2

/-- xilinx/us/interface.py:577, 767, 968, 1148: the bits `is_eop` of 512-bit interfaces. -/
def eop (b : Bus) : Nat :=
  match b.kind with
  | .rq => 26
  | .rc => 76
  | .cq => 86
  | .cc => 6

/-- xilinx/us/interface.py:579, 769, 970, 1150: the fields `is_eop_ptr` of 512-bit interfaces. -/
def eopPtr (b : Bus) : Nat :=
  match b.kind with
  | .rq => 28
  | .rc => 80
  | .cq => 88
  | .cc => 8

end Bus

/-- xilinx/us/interface.py:99-111: `UsPcieTransaction`. -/
structure Txn where
  tdata : Nat := 0
  tlast : Nat := 0
  tkeep : Nat := 0
  tuser : Nat := 0
deriving DecidableEq, Repr

/-- The local variables `frame`, `frame_offset` and `first` of `_run`. -/
structure Cur where
  frame : UsFrame
  off : Nat
  first : Bool
deriving DecidableEq, Repr

/-- xilinx/us/interface.py:537-554, 737-744, 931-944, 1121-1125: what the first segment of a frame adds to `tuser`. -/
def putSop (b : Bus) (f : UsFrame) (seg sopCnt tuser : Nat) : Nat :=
  if b.width = 512 then
    let tuser := match b.kind with
      | .rq => tuser ||| (f.firstBe &&& 0xf) <<< (sopCnt * 4) ||| (f.lastBe &&& 0xf) <<< (sopCnt * 4 + 8) ||| (f.seqNum &&& 0x3f) <<< (sopCnt * 6 + 61)
      | .cq => tuser ||| (f.firstBe &&& 0xf) <<< (seg * 4) ||| (f.lastBe &&& 0xf) <<< (seg * 4 + 8)
      | _ => tuser
    tuser ||| 1 <<< (b.sop + sopCnt) ||| (seg * b.lanes / 4) <<< (b.sopPtr + sopCnt * 2)
  else match b.kind with
    | .rq =>
      let tuser := tuser ||| (f.firstBe &&& 0xf) ||| (f.lastBe &&& 0xf) <<< 4 ||| (f.seqNum &&& 0xf) <<< 24
      if b.tuser = 62 then tuser ||| ((f.seqNum >>> 4) &&& 0x3) <<< 60 else tuser
    | .rc => tuser ||| 1 <<< (32 + sopCnt)
    | .cq => tuser ||| (f.firstBe &&& 0xf) ||| (f.lastBe &&& 0xf) <<< 4 ||| 1 <<< 40
    | .cc => tuser

/-- xilinx/us/interface.py:574-579, 765-773, 965-970, 1145-1150: what the last segment of a frame adds to `tuser`. -/
def putEop (b : Bus) (eopCnt lastLane tuser : Nat) : Nat :=
  if b.width = 512 then tuser ||| 1 <<< (b.eop + eopCnt) ||| lastLane <<< (b.eopPtr + eopCnt * 4)
  else match b.kind with
    | .rc => tuser ||| 1 <<< (34 + eopCnt * 4) ||| lastLane <<< (35 + eopCnt * 4)
    | _ => tuser

/-- xilinx/us/interface.py:561-571, 751-762, 951-962, 1132-1142: the loop over the lanes of a segment. -/
def putLanes (b : Bus) (f : UsFrame) (seg : Nat) : List Nat → Txn → Nat → Nat → Py (Txn × Nat × Nat)
  | [], t, off, last => .ok (t, off, last)
  | k :: ks, t, off, last =>
    let lane := k + seg * b.lanes
    if off < f.data.length then
      match item f.data off with
      | .error e => .error e
      | .ok d => match (match b.ben with | some o => (item f.byteEn off).map (· <<< (lane * 4 + o)) | none => .ok 0) with
        | .error e => .error e
        | .ok e => match item f.parity off with
          | .error e => .error e
          | .ok p =>
            putLanes b f seg ks { t with tdata := t.tdata ||| d <<< (lane * 32), tkeep := t.tkeep ||| 1 <<< lane
                                         tuser := t.tuser ||| e ||| p <<< (lane * 4 + b.par) } (off + 1) lane
    else putLanes b f seg ks { t with tuser := t.tuser ||| 0xf <<< (lane * 4 + b.par) } off last

/-- The state of the loop over the segments: the transaction, `sop_cnt` and `eop_cnt`. -/
structure Acc where
  t : Txn := {}
  sopCnt : Nat := 0
  eopCnt : Nat := 0
deriving DecidableEq, Repr

/-- xilinx/us/interface.py:534-586, 734-780, 928-977, 1118-1157: one segment of a frame. -/
def putSeg (b : Bus) (seg : Nat) (a : Acc) (c : Cur) : Py (Acc × Option Cur) :=
  let f := c.frame
  let a := if c.first then { a with t := { a.t with tuser := putSop b f seg a.sopCnt a.t.tuser }, sopCnt := a.sopCnt + 1 } else a
  let a := if f.discontinue then { a with t := { a.t with tuser := a.t.tuser ||| 1 <<< b.disc } } else a
  match putLanes b f seg (List.range b.lanes) a.t c.off 0 with
  | .error e => .error e
  | .ok (t, off, last) =>
    if off ≥ f.data.length then
      .ok (⟨{ t with tuser := putEop b a.eopCnt last t.tuser, tlast := if b.segs = 1 then 1 else t.tlast }, a.sopCnt, a.eopCnt + 1⟩, none)
    else .ok (⟨t, a.sopCnt, a.eopCnt⟩, some ⟨f, off, false⟩)

/-- xilinx/us/interface.py:524-586, 724-780, 918-977, 1108-1157: the loop over the segments. -/
def putSegs (b : Bus) : List Nat → Acc → Option Cur → List UsFrame → Py (Acc × Option Cur × List UsFrame)
  | [], a, c, q => .ok (a, c, q)
  | seg :: segs, a, some c, q =>
    match putSeg b seg a c with
    | .error e => .error e
    | .ok (a, c) => putSegs b segs a c q
  | _ :: _, a, none, [] => .ok (a, none, [])
  | seg :: segs, a, none, f :: q =>
    match putSeg b seg a ⟨f, 0, true⟩ with
    | .error e => .error e
    | .ok (a, c) => putSegs b segs a c q

/-- xilinx/us/interface.py:324 (`bus.drive`) and 476 (`bus.sample`): what the other side sees. A value that does not fit raises an exception. -/
def Bus.carry (b : Bus) (t : Txn) : Py Txn := do
  let tdata ← signal true b.width t.tdata
  let tlast ← signal true 1 t.tlast
  let tkeep ← signal true b.byteLanes t.tkeep
  let tuser ← signal true b.tuser t.tuser
  return { tdata, tlast, tkeep, tuser }

/-- The source: what is queued and the frame in progress. -/
structure Src where
  queue : List UsFrame := []
  cur : Option Cur := none
deriving DecidableEq, Repr

/-- What can happen: a frame is queued (263-280), or `_run` builds a transaction. It builds one when it holds a frame or
can get one (514, 519; otherwise it waits), and when the previous one is taken (`_drive`, 588). -/
inductive Ev
  | send (f : UsFrame)
  | beat
deriving DecidableEq, Repr

/-- xilinx/us/interface.py:513-588, 713-782, 907-979, 1097-1159. -/
def Src.step (b : Bus) (s : Src) : Ev → Py (Src × List Txn)
  | .send f => .ok ({ s with queue := s.queue ++ [f] }, [])
  | .beat =>
    if s.cur = none ∧ s.queue = [] then .ok (s, [])
    else match putSegs b (List.range b.segs) {} s.cur s.queue with
      | .error e => .error e
      | .ok (a, c, q) => match b.carry a.t with
        | .error e => .error e
        | .ok t => .ok (⟨q, c⟩, [t])

/-- All the transactions of a history. -/
def Src.run (b : Bus) : Src → List Ev → Py (Src × List Txn)
  | s, [] => .ok (s, [])
  | s, e :: es =>
    match s.step b e with
    | .error e => .error e
    | .ok (s, ts) => match Src.run b s es with
      | .error e => .error e
      | .ok (s, ts') => .ok (s, ts ++ ts')

/-- The local variables `lane_valid`, `seg_valid`, `seg_sop` and `seg_eop` of the sink. -/
structure Masks where
  laneValid : Nat
  segValid : Nat
  segSop : Nat
  segEop : Nat
deriving DecidableEq, Repr

/-- xilinx/us/interface.py:636-642, 843-849, 1028-1034, 1206-1212: `sop_byte_lane` and `eop_byte_lane` of 512-bit interfaces. -/
def markWide (b : Bus) (tuser : Nat) : List Nat → Nat → Nat → Nat × Nat
  | [], sop, eop => (sop, eop)
  | k :: ks, sop, eop =>
    markWide b tuser ks
      (if tuser &&& 1 <<< (b.sop + k) ≠ 0 then sop ||| 1 <<< (((tuser >>> (b.sopPtr + k * 2)) &&& 0x3) * 4) else sop)
      (if tuser &&& 1 <<< (b.eop + k) ≠ 0 then eop ||| 1 <<< ((tuser >>> (b.eopPtr + k * 4)) &&& 0xf) else eop)

/-- xilinx/us/interface.py:838-841: `eop_byte_lane` of the 256-bit `RcSink`. -/
def markEop (tuser : Nat) : List Nat → Nat → Nat
  | [], eop => eop
  | k :: ks, eop => markEop tuser ks (if tuser &&& 1 <<< (34 + k * 4) ≠ 0 then eop ||| 1 <<< ((tuser >>> (35 + k * 4)) &&& 0x7) else eop)

/-- xilinx/us/interface.py:829-849: `sop_byte_lane` and `eop_byte_lane` of the sink. `busy`: `frame is not None`. -/
def marks (b : Bus) (tuser : Nat) (busy : Bool) : Nat × Nat :=
  if b.width = 512 then markWide b tuser (List.range b.segs) 0 0
  else
    let sop := if tuser &&& 1 <<< 32 ≠ 0 then 0 ||| 1 <<< (if busy then 4 else 0) else 0
    let sop := if tuser &&& 2 <<< 32 ≠ 0 then sop ||| 1 <<< 4 else sop
    (sop, markEop tuser (List.range b.segs) 0)

/-- xilinx/us/interface.py:646-657, 853-864, 1038-1049, 1216-1227: the loop over the lanes. -/
def walk (b : Bus) (sop eop : Nat) : List Nat → Bool → Masks → Masks
  | [], _, m => m
  | k :: ks, state, m =>
    let seg := 1 <<< (k / b.lanes)
    let r := if sop &&& 1 <<< k ≠ 0 then (true, { m with segSop := m.segSop ||| seg }) else (state, m)
    let m := if r.1 then { r.2 with laneValid := r.2.laneValid ||| 1 <<< k, segValid := r.2.segValid ||| seg } else r.2
    if eop &&& 1 <<< k ≠ 0 then walk b sop eop ks false { m with segEop := m.segEop ||| seg } else walk b sop eop ks r.1 m

/-- xilinx/us/interface.py:618-657, 812-864, 1011-1049, 1189-1227. -/
def masks (b : Bus) (t : Txn) (frame : Option UsFrame) : Masks :=
  if b.segs = 1 then
    ⟨t.tkeep, 1, if (match frame with | none => true | some f => decide (f.data = [])) then 1 else 0, if t.tlast ≠ 0 then 1 else 0⟩
  else if b.width = 512 ∨ b.kind = .rc ∧ b.width ≥ 256 then
    let r := marks b t.tuser frame.isSome
    walk b r.1 r.2 (List.range b.byteLanes) true ⟨0, 0, 0, 0⟩
  else ⟨2 ^ b.byteLanes - 1, 2 ^ b.segs - 1, 0, 0⟩

/-- xilinx/us/interface.py:664-678, 871, 1056-1063, 1234: a new frame. -/
def getSop (b : Bus) (tuser seg sopCnt : Nat) : UsFrame :=
  match b.kind with
  | .rq =>
    if b.width = 512 then
      { firstBe := (tuser >>> (sopCnt * 4)) &&& 0xf, lastBe := (tuser >>> (sopCnt * 4 + 8)) &&& 0xf, seqNum := (tuser >>> (sopCnt * 6 + 61)) &&& 0x3f }
    else
      { firstBe := tuser &&& 0xf, lastBe := (tuser >>> 4) &&& 0xf
        seqNum := if b.tuser = 62 then (tuser >>> 24) &&& 0xf ||| ((tuser >>> 60) &&& 0x3) <<< 4 else (tuser >>> 24) &&& 0xf }
  | .cq =>
    if b.width = 512 then { firstBe := (tuser >>> (seg * 4)) &&& 0xf, lastBe := (tuser >>> (seg * 4 + 8)) &&& 0xf }
    else { firstBe := tuser &&& 0xf, lastBe := (tuser >>> 4) &&& 0xf }
  | _ => {}

/-- xilinx/us/interface.py:685-689, 876-881, 1068-1073, 1239-1243: the loop over the lanes of a segment. -/
def getLanes (b : Bus) (t : Txn) (laneValid seg : Nat) : List Nat → UsFrame → UsFrame
  | [], f => f
  | k :: ks, f =>
    let lane := k + seg * b.lanes
    getLanes b t laneValid seg ks
      (if laneValid &&& 1 <<< lane ≠ 0 then
        { f with
          data := f.data ++ [(t.tdata >>> (lane * 32)) &&& 0xffffffff]
          byteEn := match b.ben with | some o => f.byteEn ++ [(t.tuser >>> (lane * 4 + o)) &&& 0xf] | none => f.byteEn
          parity := f.parity ++ [(t.tuser >>> (lane * 4 + b.par)) &&& 0xf] }
      else f)

/-- The sink: its local variable `frame`. -/
structure Snk where
  frame : Option UsFrame
deriving DecidableEq, Repr

/-- xilinx/us/interface.py:607, 801, 1000, 1178: the start. -/
def Snk.init (b : Bus) : Snk := ⟨if b.kind = .rc then none else some {}⟩

/-- xilinx/us/interface.py:659-695, 866-887, 1051-1079, 1229-1249: the loop over the segments; the frames that are put in the queue. -/
def getSegs (b : Bus) (t : Txn) (m : Masks) : Snk → Nat → List Nat → Py (Snk × List UsFrame)
  | s, _, [] => .ok (s, [])
  | s, sopCnt, seg :: segs =>
    if m.segValid &&& 1 <<< seg = 0 then getSegs b t m s sopCnt segs
    else
      let r := if m.segSop &&& 1 <<< seg ≠ 0 then (some (getSop b t.tuser seg sopCnt), sopCnt + 1) else (s.frame, sopCnt)
      match r.1 with
      | none => .error "AttributeError"
      | some f =>
        let f := if t.tuser &&& 1 <<< b.disc ≠ 0 then { f with discontinue := true } else f
        let f := getLanes b t m.laneValid seg (List.range b.lanes) f
        if m.segEop &&& 1 <<< seg ≠ 0 then
          match getSegs b t m ⟨none⟩ r.2 segs with
          | .error e => .error e
          | .ok (s, fs) => .ok (s, f :: fs)
        else getSegs b t m ⟨some f⟩ r.2 segs

/-- xilinx/us/interface.py:609-695, 803-887, 1002-1079, 1180-1249: the sink over all the transactions. -/
def Snk.run (b : Bus) : Snk → List Txn → Py (Snk × List UsFrame)
  | s, [] => .ok (s, [])
  | s, t :: ts =>
    match getSegs b t (masks b t s.frame) s 0 (List.range b.segs) with
    | .error e => .error e
    | .ok (s, fs) => match Snk.run b s ts with
      | .error e => .error e
      | .ok (s, fs') => .ok (s, fs ++ fs')

end Us
end Pcie
