import Verif.Spec.Stream
/-
Specification: the signals on the Intel streaming interfaces (Stratix 10 H-Tile/L-Tile and P-Tile Avalon-ST user guides), for a transaction whose segments carry
given parts of frames. Every signal has one element for each segment, segment 0 in the least significant bits.
-/
namespace Pcie.Spec

/-- Element `i` of width `w`. -/
def elem (w v i : Nat) : Nat := v / 2 ^ (w * i) % 2 ^ w

/-- The parts into which a frame with `n` dwords is cut; a frame without data has one part. -/
def cuts {F : Type} (L n : Nat) (f : F) : List (F × Nat) := (List.range (max 1 ((n + L - 1) / L))).map fun i => (f, i * L)

/-- The segments are used from the first one on. -/
def Packed {α : Type} (segs : Nat) (ps : List (Option α)) : Prop := ps.length = segs ∧ ∃ os n, os ≠ [] ∧ ps = os.map some ++ List.replicate n none

/-- Stratix 10: a segment with the dwords of a frame from an offset on. -/
structure S10Seg (b : S10.Bus) (t : S10.Txn) (i : Nat) (f : S10Frame) (off : Nat) : Prop where
  valid : elem 1 t.valid i = 1
  sop : elem 1 t.sop i = if off = 0 then 1 else 0
  eop : elem 1 t.eop i = if f.data.length ≤ off + b.lanes then 1 else 0
  data : ∀ k < b.lanes, elem 32 t.data (i * b.lanes + k) = f.data.getD (off + k) 0
  parity : b.parity = true → ∀ k < b.lanes, elem 4 t.parity (i * b.lanes + k) = f.parity.getD (off + k) 0
  empty : elem b.emptyWidth t.empty i = if f.data.length ≤ off + b.lanes then off + b.lanes - f.data.length else 0
  err : b.err = true → elem 1 t.err i = f.err
  vfActive : b.vfActive = true → elem 1 t.vfActive i = if f.vfNum.isSome then 1 else 0
  vfNum : b.vfNum = true → elem 11 t.vfNum i = f.vfNum.getD 0
  barRange : b.barRange = true → elem 3 t.barRange i = f.barRange

/-- Stratix 10: a transaction with these parts of frames. -/
def S10Beat (b : S10.Bus) (t : S10.Txn) (ps : List (Option (S10Frame × Nat))) : Prop :=
  Packed b.segs ps ∧ ∀ i < b.segs, match ps[i]? with
    | some (some (f, off)) => S10Seg b t i f off
    | _ => elem 1 t.valid i = 0

/-- Stratix 10: the function number has two bits for each segment. -/
def S10BeatFunc (b : S10.Bus) (t : S10.Txn) (ps : List (Option (S10Frame × Nat))) : Prop :=
  b.funcNum = true → ∀ i f off, ps[i]? = some (some (f, off)) → elem 2 t.funcNum i = f.funcNum

/-- P-Tile: a segment with the dwords of a frame from an offset on. Header, prefix and their parity are on the first segment of the frame. -/
structure PTileSeg (b : PTile.Bus) (t : PTile.Txn) (i : Nat) (f : PTileFrame) (off : Nat) : Prop where
  valid : elem 1 t.valid i = 1
  sop : elem 1 t.sop i = if off = 0 then 1 else 0
  eop : elem 1 t.eop i = if f.data.length ≤ off + b.lanes then 1 else 0
  hdr : off = 0 → elem 128 t.hdr i = f.hdr
  prfx : off = 0 → elem 32 t.prfx i = f.prfx
  hdrPar : b.hdrPar = true → off = 0 → elem 16 t.hdrPar i = f.hdrPar
  prfxPar : b.prfxPar = true → off = 0 → elem 4 t.prfxPar i = f.prfxPar
  data : ∀ k < b.lanes, elem 32 t.data (i * b.lanes + k) = f.data.getD (off + k) 0
  parity : b.parity = true → ∀ k < b.lanes, elem 4 t.parity (i * b.lanes + k) = f.parity.getD (off + k) 0
  empty : b.empty = true → f.data ≠ [] → elem b.emptyWidth t.empty i = if f.data.length ≤ off + b.lanes then off + b.lanes - f.data.length else 0
  err : b.err = true → elem 1 t.err i = f.err
  vfActive : b.vfActive = true → elem 1 t.vfActive i = if f.vfNum.isSome then 1 else 0
  vfNum : b.vfNum = true → elem 11 t.vfNum i = f.vfNum.getD 0
  func : b.funcNum = true → elem 3 t.funcNum i = f.funcNum
  barRange : b.barRange = true → elem 3 t.barRange i = f.barRange

/-- P-Tile: a transaction with these parts of frames. -/
def PTileBeat (b : PTile.Bus) (t : PTile.Txn) (ps : List (Option (PTileFrame × Nat))) : Prop :=
  Packed b.segs ps ∧ ∀ i < b.segs, match ps[i]? with
    | some (some (f, off)) => PTileSeg b t i f off
    | _ => elem 1 t.valid i = 0

end Pcie.Spec
