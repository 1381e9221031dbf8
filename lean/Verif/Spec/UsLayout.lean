import Verif.Spec.Stream
/-
Specification: the signals on the UltraScale streaming interfaces (Xilinx PG156 and PG213, tables of the sideband signals `tuser`), for a transaction whose
segments carry given parts of frames.
-/
namespace Pcie.Spec

/-- The signals in `tuser` that the sources drive. -/
inductive UsSig
  | firstBe | lastBe | seqNum | seqNumHigh | isSop | isSopPtr | isEop | isEopPtr | discontinue | byteEn | parity
deriving DecidableEq, Repr

def UsSig.all : List UsSig := [.firstBe, .lastBe, .seqNum, .seqNumHigh, .isSop, .isSopPtr, .isEop, .isEopPtr, .discontinue, .byteEn, .parity]

/-- Bit of element 0, distance of the elements, their width and number. First the 512-bit interfaces, then the others. For requester completions of up to
256 bits, `is_eof_0` and `is_eof_1` of four bits each are a flag and a pointer. -/
def usPos (b : Us.Bus) (s : UsSig) : Option (Nat × Nat × Nat × Nat) :=
  if b.width = 512 then
    match b.kind, s with
    | .rq, .firstBe => some (0, 4, 4, 2)
    | .rq, .lastBe => some (8, 4, 4, 2)
    | .rq, .isSop => some (20, 1, 1, 2)
    | .rq, .isSopPtr => some (22, 2, 2, 2)
    | .rq, .isEop => some (26, 1, 1, 2)
    | .rq, .isEopPtr => some (28, 4, 4, 2)
    | .rq, .discontinue => some (36, 1, 1, 1)
    | .rq, .seqNum => some (61, 6, 6, 2)
    | .rq, .parity => some (73, 4, 4, 16)
    | .rc, .byteEn => some (0, 4, 4, 16)
    | .rc, .isSop => some (64, 1, 1, 4)
    | .rc, .isSopPtr => some (68, 2, 2, 4)
    | .rc, .isEop => some (76, 1, 1, 4)
    | .rc, .isEopPtr => some (80, 4, 4, 4)
    | .rc, .discontinue => some (96, 1, 1, 1)
    | .rc, .parity => some (97, 4, 4, 16)
    | .cq, .firstBe => some (0, 4, 4, 2)
    | .cq, .lastBe => some (8, 4, 4, 2)
    | .cq, .byteEn => some (16, 4, 4, 16)
    | .cq, .isSop => some (80, 1, 1, 2)
    | .cq, .isSopPtr => some (82, 2, 2, 2)
    | .cq, .isEop => some (86, 1, 1, 2)
    | .cq, .isEopPtr => some (88, 4, 4, 2)
    | .cq, .discontinue => some (96, 1, 1, 1)
    | .cq, .parity => some (119, 4, 4, 16)
    | .cc, .isSop => some (0, 1, 1, 2)
    | .cc, .isSopPtr => some (2, 2, 2, 2)
    | .cc, .isEop => some (6, 1, 1, 2)
    | .cc, .isEopPtr => some (8, 4, 4, 2)
    | .cc, .discontinue => some (16, 1, 1, 1)
    | .cc, .parity => some (17, 4, 4, 16)
    | _, _ => none
  else
    match b.kind, s with
    | .rq, .firstBe => some (0, 4, 4, 1)
    | .rq, .lastBe => some (4, 4, 4, 1)
    | .rq, .discontinue => some (11, 1, 1, 1)
    | .rq, .seqNum => some (24, 4, 4, 1)
    | .rq, .parity => some (28, 4, 4, b.width / 32)
    | .rq, .seqNumHigh => if b.tuser = 62 then some (60, 2, 2, 1) else none
    | .rc, .byteEn => some (0, 4, 4, b.width / 32)
    | .rc, .isSop => some (32, 1, 1, 2)
    | .rc, .isEop => some (34, 4, 1, 2)
    | .rc, .isEopPtr => some (35, 4, 3, 2)
    | .rc, .discontinue => some (42, 1, 1, 1)
    | .rc, .parity => some (43, 4, 4, b.width / 32)
    | .cq, .firstBe => some (0, 4, 4, 1)
    | .cq, .lastBe => some (4, 4, 4, 1)
    | .cq, .byteEn => some (8, 4, 4, b.width / 32)
    | .cq, .isSop => some (40, 1, 1, 1)
    | .cq, .discontinue => some (41, 1, 1, 1)
    | .cq, .parity => some (53, 4, 4, b.width / 32)
    | .cc, .discontinue => some (0, 1, 1, 1)
    | .cc, .parity => some (1, 4, 4, b.width / 32)
    | _, _ => none

/-- Element `j` of the signal. -/
def usSig (b : Us.Bus) (t : Us.Txn) (s : UsSig) (j : Nat) : Option Nat :=
  match usPos b s with
  | some (lsb, dist, w, n) => if j < n then some (t.tuser / 2 ^ (lsb + j * dist) % 2 ^ w) else none
  | none => none

/-- Bit `i` of `tuser` belongs to the signal. -/
def usCovers (b : Us.Bus) (s : UsSig) (i : Nat) : Bool :=
  match usPos b s with
  | some (lsb, dist, w, n) => (List.range n).any fun j => decide (lsb + j * dist ≤ i) && decide (i < lsb + j * dist + w)
  | none => false

/-- What the segments of a transaction carry: nothing, or the dwords of a frame from an offset on. -/
abbrev UsSlots := List (Option (UsFrame × Nat))

/-- The frames that start in the transaction, with their segments. -/
def usStarts (ps : UsSlots) : List (Nat × UsFrame) :=
  ps.zipIdx.filterMap fun p => match p.1 with | some (f, 0) => some (p.2, f) | _ => none

/-- The lanes of the last dwords of the frames that end in the transaction. -/
def usEnds (lanes : Nat) (ps : UsSlots) : List Nat :=
  ps.zipIdx.filterMap fun p => match p.1 with
    | some (f, off) => if f.data.length ≤ off + lanes then some (p.2 * lanes + (f.data.length - 1 - off)) else none
    | none => none

/-- The number of dwords in a segment. -/
def usLanes (b : Us.Bus) : Nat := b.width / 32 / b.segs

/-- The frame and the index of the dword in a lane. -/
def usAt (ps : UsSlots) (seg k : Nat) : Option (UsFrame × Nat) :=
  match ps[seg]? with
  | some (some (f, off)) => if off + k < f.data.length then some (f, off + k) else none
  | _ => none

/-- A transaction with these parts of frames. -/
structure UsBeat (b : Us.Bus) (t : Us.Txn) (ps : UsSlots) : Prop where
  segs : ps.length = b.segs
  /-- the segments are used from the first one on -/
  packed : ∃ os n, os ≠ [] ∧ ps = os.map some ++ List.replicate n none
  dataWidth : t.tdata < 2 ^ b.width
  data : ∀ seg k, seg < b.segs → k < usLanes b →
    t.tdata / 2 ^ (32 * (seg * usLanes b + k)) % 2 ^ 32 = ((usAt ps seg k).map fun p => p.1.data.getD p.2 0).getD 0
  keepWidth : t.tkeep < 2 ^ (b.width / 32)
  keep : ∀ seg k, seg < b.segs → k < usLanes b → t.tkeep.testBit (seg * usLanes b + k) = (usAt ps seg k).isSome
  last : t.tlast = if b.segs = 1 ∧ usEnds (usLanes b) ps ≠ [] then 1 else 0
  sop : ∀ j v, usSig b t .isSop j = some v → v = if (usStarts ps)[j]?.isSome then 1 else 0
  sopPtr : ∀ j v, usSig b t .isSopPtr j = some v → v = ((usStarts ps)[j]?.map fun p => p.1 * usLanes b / 4).getD 0
  eop : ∀ j v, usSig b t .isEop j = some v → v = if (usEnds (usLanes b) ps)[j]?.isSome then 1 else 0
  eopPtr : ∀ j v, usSig b t .isEopPtr j = some v → v = (usEnds (usLanes b) ps)[j]?.getD 0
  seqNum : ∀ j v, usSig b t .seqNum j = some v → v = ((usStarts ps)[j]?.map fun p => p.2.seqNum % (if b.width = 512 then 64 else 16)).getD 0
  seqNumHigh : ∀ j v, usSig b t .seqNumHigh j = some v → v = ((usStarts ps)[j]?.map fun p => p.2.seqNum / 16 % 4).getD 0
  discontinue : ∀ v, usSig b t .discontinue 0 = some v → (v = 1 ↔ ∃ f off, some (f, off) ∈ ps ∧ f.discontinue = true)
  byteEn : ∀ seg k, seg < b.segs → k < usLanes b → ∀ v, usSig b t .byteEn (seg * usLanes b + k) = some v →
    v = ((usAt ps seg k).map fun p => p.1.byteEn.getD p.2 0).getD 0
  parity : ∀ seg k, seg < b.segs → k < usLanes b → ∀ v, usSig b t .parity (seg * usLanes b + k) = some v →
    ∀ f i, usAt ps seg k = some (f, i) → v = f.parity.getD i 0
  /-- the other bits are zero -/
  other : ∀ i, (∀ s, usCovers b s i = false) → t.tuser.testBit i = false

/-- The byte enables in `tuser`: those of the frames that start in the transaction, in this order. -/
def UsBeatBe (b : Us.Bus) (t : Us.Txn) (ps : UsSlots) : Prop :=
  (∀ j v, usSig b t .firstBe j = some v → v = ((usStarts ps)[j]?.map fun p => p.2.firstBe % 16).getD 0) ∧
  (∀ j v, usSig b t .lastBe j = some v → v = ((usStarts ps)[j]?.map fun p => p.2.lastBe % 16).getD 0)

/-- The parts into which a frame is cut. -/
def usCuts (L : Nat) (f : UsFrame) : List (UsFrame × Nat) := (List.range ((f.data.length + L - 1) / L)).map fun i => (f, i * L)

end Pcie.Spec
