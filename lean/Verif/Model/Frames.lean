import Verif.Model.Tlp
/-
Model of the frames of the hard IP core interfaces and of their parity: xilinx/us/interface.py, intel/s10/interface.py,
intel/ptile/interface.py.
-/
namespace Pcie

/-- xilinx/us/interface.py:32-43, intel/s10/interface.py:63-74 and intel/ptile/interface.py:63-74: `dword_parity`. -/
def dwordParity (d : Nat) : Nat :=
  let d := d ^^^ (d >>> 4)
  let d := d ^^^ (d >>> 2)
  let d := d ^^^ (d >>> 1)
  let p := d &&& 0x1
  let p := if d &&& 0x100 ≠ 0 then p ||| 0x2 else p
  let p := if d &&& 0x10000 ≠ 0 then p ||| 0x4 else p
  if d &&& 0x1000000 ≠ 0 then p ||| 0x8 else p

/-- intel/ptile/interface.py:83-88 (and intel/s10/interface.py:83-88): the loop of `parity`. -/
def parityLoop (d b p : Nat) : Nat :=
  if h : d = 0 then p
  else parityLoop (d >>> 8) (b <<< 1) (if d &&& 0x1 ≠ 0 then p ||| b else p)
termination_by d
decreasing_by rw [Nat.shiftRight_eq_div_pow]; omega

/-- intel/ptile/interface.py:77-89: `parity`. -/
def parityOf (d : Nat) : Nat :=
  let d := d ^^^ (d >>> 4)
  let d := d ^^^ (d >>> 2)
  let d := d ^^^ (d >>> 1)
  parityLoop d 0x1 0

/-- xilinx/us/interface.py:46-63: `UsPcieFrame`. -/
structure UsFrame where
  data : List Nat := []
  byteEn : List Nat := []
  parity : List Nat := []
  firstBe : Nat := 0
  lastBe : Nat := 0
  discontinue : Bool := false
  seqNum : Nat := 0
deriving DecidableEq, Repr

namespace UsFrame

/-- xilinx/us/interface.py:65-66. -/
def updateParity (f : UsFrame) : UsFrame := { f with parity := f.data.map fun d => dwordParity d ^^^ 0xf }

/-- xilinx/us/interface.py:68-69. -/
def checkParity (f : UsFrame) : Bool := f.parity == f.data.map fun d => dwordParity d ^^^ 0xf

end UsFrame

/-- intel/s10/interface.py:92-119: `S10PcieFrame`. -/
structure S10Frame where
  data : List Nat := []
  parity : List Nat := []
  funcNum : Nat := 0
  vfNum : Option Nat := none
  barRange : Nat := 0
  err : Nat := 0
deriving DecidableEq, Repr

namespace S10Frame

/-- intel/s10/interface.py:136-137. -/
def updateParity (f : S10Frame) : S10Frame := { f with parity := f.data.map fun d => dwordParity d ^^^ 0xf }

/-- intel/s10/interface.py:139-142. -/
def checkParity (f : S10Frame) : Bool := f.parity == f.data.map fun d => dwordParity d ^^^ 0xf

end S10Frame

/-- intel/ptile/interface.py:92-127: `PTilePcieFrame`. -/
structure PTileFrame where
  prfx : Nat := 0
  hdr : Nat := 0
  data : List Nat := []
  prfxPar : Nat := 0
  hdrPar : Nat := 0
  parity : List Nat := []
  funcNum : Nat := 0
  vfNum : Option Nat := none
  barRange : Nat := 0
  abort : Nat := 0
  err : Nat := 0
deriving DecidableEq, Repr

namespace PTileFrame

/-- intel/ptile/interface.py:142-145. -/
def updateParity (f : PTileFrame) : PTileFrame :=
  { f with parity := f.data.map fun d => dwordParity d ^^^ 0xf
           hdrPar := parityOf f.hdr
           prfxPar := dwordParity f.prfx }

/-- intel/ptile/interface.py:147-152. -/
def checkParity (f : PTileFrame) : Bool :=
  (f.parity == f.data.map fun d => dwordParity d ^^^ 0xf) && f.hdrPar == parityOf f.hdr && f.prfxPar == dwordParity f.prfx

end PTileFrame
end Pcie
