/-
The limits of the PCI Express Base Specification for the latency of acknowledgements (and of flow control updates).
-/
namespace Pcie.Spec

/-- The widths of a link. -/
def linkWidths : List Nat := [1, 2, 4, 8, 12, 16, 32]

/-- Symbol times at 2.5 GT/s, for each maximum payload size, by the width of the link. -/
def ackLimits : List (Nat × List Nat) :=
  [(128, [237, 128, 73, 67, 58, 48, 33]),
   (256, [416, 217, 118, 107, 90, 72, 45]),
   (512, [559, 289, 154, 86, 109, 86, 52]),
   (1024, [1071, 545, 282, 150, 194, 150, 84]),
   (2048, [2095, 1057, 538, 278, 365, 278, 148]),
   (4096, [4143, 2081, 1050, 534, 706, 534, 276])]

/-- What is added at 2.5, 5 and from 8 GT/s on (the internal delay is 19, 70 and 115 symbol times). -/
def ackExtra (speed : Nat) : Nat := if speed = 1 then 0 else if speed = 2 then 51 else 96

end Pcie.Spec
