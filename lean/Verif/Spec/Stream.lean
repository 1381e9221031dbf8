import Verif.Model.S10Stream
import Verif.Model.PTileStream
import Verif.Model.UsStream
/-
What a frame must be like to be sent on a streaming interface, and what arrives.
-/
namespace Pcie.Spec

/-- The number of dwords that a TLP has, by its first header dword: 3 or 4 for the header and, for a TLP with data, its length. -/
def tlpDwords (h : Nat) : Nat :=
  (if h.testBit 29 then 4 else 3) + (if h.testBit 30 then (if h % 1024 = 0 then 1024 else h % 1024) else 0)

/-- A Stratix 10 frame: dwords, as many as its header says; parity for each of them; every other field within its width. -/
structure S10Ok (f : S10Frame) : Prop where
  data : ∀ d ∈ f.data, d < 2 ^ 32
  length : ∃ h, f.data[0]? = some h ∧ f.data.length = tlpDwords h
  parity : ∀ p ∈ f.parity, p < 16
  parityLength : f.parity.length = f.data.length
  func : f.funcNum < 8
  vf : ∀ v ∈ f.vfNum, v < 2048
  bar : f.barRange < 8
  err : f.err < 2

/-- The frame without what the bus has no signals for. -/
def s10Seen (b : S10.Bus) (f : S10Frame) : S10Frame :=
  { data := f.data
    parity := if b.parity then f.parity else f.parity.map fun _ => 0
    funcNum := if b.funcNum then f.funcNum else 0
    vfNum := if b.vfActive then f.vfNum.map fun v => if b.vfNum then v else 0 else none
    barRange := if b.barRange then f.barRange else 0
    err := if b.err then f.err else 0 }

/-- The function number fits its part of the bus, in every segment. -/
def s10FuncFits (b : S10.Bus) (f : S10Frame) : Prop :=
  b.funcNum = true → f.funcNum * 2 ^ (3 * (b.segs - 1)) < 2 ^ (2 * b.segs)

/-- The frames that were sent, in order. -/
def s10Sent (evs : List S10.Ev) : List S10Frame := evs.filterMap fun | .send f => some f | .beat => none

/-- The frames that the source still holds. -/
def s10Held (s : S10.Src) : List S10Frame := (s.cur.map (·.frame)).toList ++ s.queue

/-- The number of data dwords that a TLP has, by its 128-bit header. -/
def hdrDwords (h : Nat) : Nat :=
  if h.testBit 126 then (if h / 2 ^ 96 % 1024 = 0 then 1024 else h / 2 ^ 96 % 1024) else 0

/-- A P-Tile frame: as many dwords as its header says; parity for each of them; every other field within its width. -/
structure PTileOk (f : PTileFrame) : Prop where
  prfx : f.prfx < 2 ^ 32
  hdr : f.hdr < 2 ^ 128
  data : ∀ d ∈ f.data, d < 2 ^ 32
  length : f.data.length = hdrDwords f.hdr
  prfxPar : f.prfxPar < 16
  hdrPar : f.hdrPar < 2 ^ 16
  parity : ∀ p ∈ f.parity, p < 16
  parityLength : f.parity.length = f.data.length
  func : f.funcNum < 8
  vf : ∀ v ∈ f.vfNum, v < 2048
  bar : f.barRange < 8
  err : f.err < 2

/-- The frame without what the bus has no signals for, and without the abort flag. -/
def ptSeen (b : PTile.Bus) (f : PTileFrame) : PTileFrame :=
  { prfx := f.prfx
    hdr := f.hdr
    data := f.data
    prfxPar := if b.prfxPar then f.prfxPar else 0
    hdrPar := if b.hdrPar then f.hdrPar else 0
    parity := if b.parity then f.parity else f.parity.map fun _ => 0
    funcNum := if b.funcNum then f.funcNum else 0
    vfNum := if b.vfActive then f.vfNum.map fun v => if b.vfNum then v else 0 else none
    barRange := if b.barRange then f.barRange else 0
    err := if b.err then f.err else 0 }

/-- The frames that were sent, in order. -/
def ptSent (evs : List PTile.Ev) : List PTileFrame := evs.filterMap fun | .send f => some f | .beat => none

/-- The frames that the source still holds. -/
def ptHeld (s : PTile.Src) : List PTileFrame := (s.cur.map (·.frame)).toList ++ s.queue

/-- The straddle modes that exist: those that the constructors accept, without requester completion buses below 256 bits with two segments. -/
def UsBus (b : Us.Bus) : Prop := b.Accepted ∧ ¬ (b.kind = .rc ∧ b.width < 256 ∧ b.segs = 2)

/-- The interfaces that carry byte enables for each dword. -/
def usByteEn (k : Us.Kind) : Bool := k = .rc ∨ k = .cq

/-- An UltraScale frame: at least one dword; parity and, where the interface carries them, byte enables for each of them. -/
structure UsOk (k : Us.Kind) (f : UsFrame) : Prop where
  nonempty : f.data ≠ []
  data : ∀ d ∈ f.data, d < 2 ^ 32
  parity : ∀ p ∈ f.parity, p < 16
  parityLength : f.parity.length = f.data.length
  byteEn : usByteEn k = true → f.byteEn.length = f.data.length ∧ ∀ e ∈ f.byteEn, e < 16

/-- The frame without what the interface does not carry, and without the `discontinue` flag. Sequence numbers have 6 bits, and 4 on a narrow
requester request bus without the extra bits. -/
def usSeen (b : Us.Bus) (f : UsFrame) : UsFrame :=
  { data := f.data
    byteEn := if usByteEn b.kind then f.byteEn else []
    parity := f.parity
    firstBe := if b.kind = .rq ∨ b.kind = .cq then f.firstBe % 16 else 0
    lastBe := if b.kind = .rq ∨ b.kind = .cq then f.lastBe % 16 else 0
    seqNum := if b.kind = .rq then (if b.tuser = 60 then f.seqNum % 16 else f.seqNum % 64) else 0 }

/-- The frame without the `discontinue` flag. -/
def usPlain (f : UsFrame) : UsFrame := { f with discontinue := false }

/-- The frames that were sent, in order. -/
def usSent (evs : List Us.Ev) : List UsFrame := evs.filterMap fun | .send f => some f | .beat => none

/-- The frames that the source still holds. -/
def usHeld (s : Us.Src) : List UsFrame := (s.cur.map (·.frame)).toList ++ s.queue

end Pcie.Spec
