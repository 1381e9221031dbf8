import Verif.Model.S10Stream
/-
Model of the P-Tile streaming interface: intel/ptile/interface.py, `PTilePcieSource._run` and `PTilePcieSink._run`. The handshake
is in Model/Handshake.
-/
namespace Pcie
namespace PTile
open S10 (item signal)

/-- The bus (intel/ptile/interface.py:53-60, 236-284): number of segments, dwords in a segment, and which signals there are. `PTileTxBus` has `err`
but not `empty`, `bar_range`, `func_num`, `vf_num`, `vf_active`; `PTileRxBus` has `empty` and `bar_range` but not `err`; the others are optional. -/
structure Bus where
  segs : Nat
  lanes : Nat
  empty : Bool := true
  err : Bool := true
  barRange : Bool := true
  vfActive : Bool := true
  funcNum : Bool := true
  vfNum : Bool := true
  parity : Bool := true
  hdrPar : Bool := true
  prfxPar : Bool := true
deriving DecidableEq, Repr

/-- intel/ptile/interface.py:186-203: `PTilePcieTransaction`. `tlp_abort` is left out: neither side uses it. -/
structure Txn where
  data : Nat := 0
  empty : Nat := 0
  sop : Nat := 0
  eop : Nat := 0
  valid : Nat := 0
  err : Nat := 0
  vfActive : Nat := 0
  funcNum : Nat := 0
  vfNum : Nat := 0
  barRange : Nat := 0
  parity : Nat := 0
  hdr : Nat := 0
  prfx : Nat := 0
  hdrPar : Nat := 0
  prfxPar : Nat := 0
deriving DecidableEq, Repr

/-- The local variables `frame`, `frame_offset` and `first` of `_run`. -/
structure Cur where
  frame : PTileFrame
  off : Nat
  first : Bool
deriving DecidableEq, Repr

/-- intel/ptile/interface.py:252: `seg_empty_width`. -/
def Bus.emptyWidth (b : Bus) : Nat := bitLength (b.lanes - 1)

/-- intel/ptile/interface.py:498-502: the loop over the dwords of a segment. -/
def putDwords (b : Bus) (f : PTileFrame) (seg : Nat) : List Nat → Txn → Nat → Nat → Py (Txn × Nat × Nat)
  | [], t, empty, off => .ok (t, empty, off)
  | k :: ks, t, _, off =>
    match item f.data off with
    | .error e => .error e
    | .ok d => match item f.parity off with
      | .error e => .error e
      | .ok p =>
        putDwords b f seg ks { t with data := t.data ||| d <<< (32 * (k + seg * b.lanes)), parity := t.parity ||| p <<< (4 * (k + seg * b.lanes)) }
          (b.lanes - 1 - k) (off + 1)

/-- intel/ptile/interface.py:477-508: one segment of a frame. -/
def putSeg (b : Bus) (seg : Nat) (t : Txn) (c : Cur) : Py (Txn × Option Cur) :=
  let f := c.frame
  let t := if c.first then { t with
      valid := t.valid ||| 1 <<< seg
      sop := t.sop ||| 1 <<< seg
      hdr := t.hdr ||| f.hdr <<< (seg * 128)
      prfx := t.prfx ||| f.prfx <<< (seg * 32)
      hdrPar := t.hdrPar ||| f.hdrPar <<< (seg * 16)
      prfxPar := t.prfxPar ||| f.prfxPar <<< (seg * 4) } else t
  let t := { t with barRange := t.barRange ||| f.barRange <<< (seg * 3), funcNum := t.funcNum ||| f.funcNum <<< (seg * 3) }
  let t := match f.vfNum with
    | some v => { t with vfActive := t.vfActive ||| 1 <<< seg, vfNum := t.vfNum ||| v <<< (seg * 11) }
    | none => t
  let t := { t with err := t.err ||| f.err <<< seg }
  match (if f.data ≠ [] then
      putDwords b f seg (List.range (min b.lanes (f.data.length - c.off))) { t with valid := t.valid ||| 1 <<< seg } 0 c.off
    else .ok (t, 0, c.off)) with
  | .error e => .error e
  | .ok (t, empty, off) =>
    if off ≥ f.data.length then
      .ok ({ t with eop := t.eop ||| 1 <<< seg, empty := t.empty ||| empty <<< (seg * b.emptyWidth) }, none)
    else .ok (t, some ⟨f, off, false⟩)

/-- intel/ptile/interface.py:467-508: the loop over the segments. -/
def putSegs (b : Bus) : List Nat → Txn → Option Cur → List PTileFrame → Py (Txn × Option Cur × List PTileFrame)
  | [], t, c, q => .ok (t, c, q)
  | seg :: segs, t, some c, q =>
    match putSeg b seg t c with
    | .error e => .error e
    | .ok (t, c) => putSegs b segs t c q
  | _ :: _, t, none, [] => .ok (t, none, [])
  | seg :: segs, t, none, f :: q =>
    match putSeg b seg t ⟨f, 0, true⟩ with
    | .error e => .error e
    | .ok (t, c) => putSegs b segs t c q

/-- intel/ptile/interface.py:256-287 (widths), 447 (`bus.drive`) and 610 (`bus.sample`): what the other side sees. -/
def Bus.carry (b : Bus) (t : Txn) : Py Txn := do
  let data ← signal true (b.segs * (32 * b.lanes)) t.data
  let empty ← signal b.empty (b.segs * b.emptyWidth) t.empty
  let sop ← signal true b.segs t.sop
  let eop ← signal true b.segs t.eop
  let valid ← signal true b.segs t.valid
  let err ← signal b.err b.segs t.err
  let vfActive ← signal b.vfActive b.segs t.vfActive
  let funcNum ← signal b.funcNum (b.segs * 3) t.funcNum
  let vfNum ← signal b.vfNum (b.segs * 11) t.vfNum
  let barRange ← signal b.barRange (b.segs * 3) t.barRange
  let parity ← signal b.parity (b.segs * (32 * b.lanes) / 8) t.parity
  let hdr ← signal true (b.segs * 128) t.hdr
  let prfx ← signal true (b.segs * 32) t.prfx
  let hdrPar ← signal b.hdrPar (b.segs * 128 / 8) t.hdrPar
  let prfxPar ← signal b.prfxPar (b.segs * 32 / 8) t.prfxPar
  return { data, empty, sop, eop, valid, err, vfActive, funcNum, vfNum, barRange, parity, hdr, prfx, hdrPar, prfxPar }

/-- The source: what is queued and the frame in progress. -/
structure Src where
  queue : List PTileFrame := []
  cur : Option Cur := none
deriving DecidableEq, Repr

/-- What can happen: a frame is queued (387-409), or `_run` builds a transaction. It builds one when it holds a frame or
can get one (458-459; otherwise it waits), and when the previous one is taken (`_drive`, 510). -/
inductive Ev
  | send (f : PTileFrame)
  | beat
deriving DecidableEq, Repr

/-- intel/ptile/interface.py:457-510. -/
def Src.step (b : Bus) (s : Src) : Ev → Py (Src × List Txn)
  | .send f => .ok ({ s with queue := s.queue ++ [f] }, [])
  | .beat =>
    if s.cur = none ∧ s.queue = [] then .ok (s, [])
    else match putSegs b (List.range b.segs) {} s.cur s.queue with
      | .error e => .error e
      | .ok (t, c, q) => match b.carry t with
        | .error e => .error e
        | .ok t => .ok (⟨q, c⟩, [t])

/-- All the transactions of a history. -/
def Src.run (b : Bus) : Src → List Ev → Py (Src × List Txn)
  | s, [] => .ok (s, [])
  | s, e :: es =>
    match s.step b e with
    | .error e => .error e
    | .ok (s, ts) => match Src.run b s es with
      | .error e => .error e
      | .ok (s, ts') => .ok (s, ts ++ ts')

/-- The local variables `frame` and `dword_count` of the sink. -/
structure Snk where
  frame : Option PTileFrame := none
  count : Nat := 0
deriving DecidableEq, Repr

/-- intel/ptile/interface.py:643-648: the number of dwords of the frame, from its header. -/
def dwordCount (hdr : Nat) : Nat :=
  if hdr &&& 1 <<< 126 ≠ 0 then
    let count := (hdr >>> 96) &&& 0x3ff
    if count = 0 then 1024 else count
  else 0

/-- intel/ptile/interface.py:661-664. -/
def getDwords (data parity : Nat) : List Nat → PTileFrame → Nat → PTileFrame × Nat
  | [], f, n => (f, n)
  | k :: ks, f, n =>
    getDwords data parity ks
      { f with data := f.data ++ [(data >>> (32 * k)) &&& 0xffffffff], parity := f.parity ++ [(parity >>> (4 * k)) &&& 0xf] } (n - 1)

/-- intel/ptile/interface.py:635-654: a new frame. -/
def onSop (t : Txn) (s : Snk) (seg : Nat) : Py Snk :=
  if t.sop &&& 1 <<< seg ≠ 0 then
    if s.frame.isSome then .error "framing error: sop asserted in frame"
    else
      .ok ⟨some
        { prfx := (t.prfx >>> (seg * 32)) &&& 0xffffffff
          prfxPar := (t.prfxPar >>> (seg * 4)) &&& 0xf
          hdr := (t.hdr >>> (seg * 128)) &&& (2 ^ 128 - 1)
          hdrPar := (t.hdrPar >>> (seg * 16)) &&& 0xffff
          barRange := (t.barRange >>> (seg * 3)) &&& 0x7
          funcNum := (t.funcNum >>> (seg * 3)) &&& 0x7
          vfNum := if t.vfActive &&& 1 <<< seg ≠ 0 then some ((t.vfNum >>> (seg * 11)) &&& 0x7ff) else none
          err := (t.err >>> seg) &&& 0x1 },
        dwordCount ((t.hdr >>> (seg * 128)) &&& (2 ^ 128 - 1))⟩
  else .ok s

/-- intel/ptile/interface.py:658-664: the dwords of the segment. `seg_width` is 32 times `seg_byte_lanes` (247-251). -/
def onData (b : Bus) (t : Txn) (f : PTileFrame) (count seg : Nat) : PTileFrame × Nat :=
  if count > 0 then
    getDwords ((t.data >>> (seg * (32 * b.lanes))) &&& (2 ^ (32 * b.lanes) - 1))
      ((t.parity >>> (seg * (32 * b.lanes / 8))) &&& (2 ^ (32 * b.lanes / 8) - 1)) (List.range (min b.lanes count)) f count
  else (f, count)

/-- intel/ptile/interface.py:632-671: one segment. -/
def getSeg (b : Bus) (t : Txn) (s : Snk) (seg : Nat) : Py (Snk × List PTileFrame) :=
  if t.valid &&& 1 <<< seg = 0 then .ok (s, [])
  else
    match onSop t s seg with
    | .error e => .error e
    | .ok s => match s.frame with
      | none => .error "framing error: data transferred outside of frame"
      | some f =>
        let r := onData b t f s.count seg
        if t.eop &&& 1 <<< seg ≠ 0 then
          if r.2 = 0 then .ok (⟨none, r.2⟩, [r.1]) else .error "framing error: incorrect length or early eop"
        else .ok (⟨some r.1, r.2⟩, [])

/-- intel/ptile/interface.py:631-671: the loop over the segments; the frames that are put in the queue. -/
def getSegs (b : Bus) (t : Txn) : Snk → List Nat → Py (Snk × List PTileFrame)
  | s, [] => .ok (s, [])
  | s, seg :: segs =>
    match getSeg b t s seg with
    | .error e => .error e
    | .ok (s, fs) => match getSegs b t s segs with
      | .error e => .error e
      | .ok (s, fs') => .ok (s, fs ++ fs')

/-- intel/ptile/interface.py:617-671: the sink over all the transactions. -/
def Snk.run (b : Bus) : Snk → List Txn → Py (Snk × List PTileFrame)
  | s, [] => .ok (s, [])
  | s, t :: ts =>
    match getSegs b t s (List.range b.segs) with
    | .error e => .error e
    | .ok (s, fs) => match Snk.run b s ts with
      | .error e => .error e
      | .ok (s, fs') => .ok (s, fs ++ fs')

end PTile
end Pcie
