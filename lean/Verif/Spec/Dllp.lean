/-
Specification of the DLLP wire format (PCI Express base specification, section 3.4/3.5) and of bit errors.
-/
import Verif.Model.Dllp
namespace Pcie.Spec
open Pcie

/-- Families of DLLPs that have a wire encoding. -/
inductive DllpKind where
  | ackNak | plain | feature | fc
deriving DecidableEq

/-- ACK 0x00, NAK 0x10; NOP and power management; data link feature; InitFC1/InitFC2/UpdateFC P/NP/Cpl. -/
def dllpKind (type : Nat) : Option DllpKind :=
  if type = 0x00 ∨ type = 0x10 then some .ackNak
  else if type = 0x31 ∨ type = 0x20 ∨ type = 0x21 ∨ type = 0x23 ∨ type = 0x24 then some .plain
  else if type = 0x02 then some .feature
  else if type = 0x40 ∨ type = 0x50 ∨ type = 0x60 ∨ type = 0xC0 ∨ type = 0xD0 ∨ type = 0xE0 ∨
    type = 0x80 ∨ type = 0x90 ∨ type = 0xA0 then some .fc
  else none

/-- The four wire bytes of a DLLP. -/
def dllpBytes (d : Dllp) : Option (List UInt8) :=
  match dllpKind d.type with
  | some .ackNak => some [UInt8.ofNat d.type, 0, UInt8.ofNat (d.seq / 256), UInt8.ofNat (d.seq % 256)]
  | some .plain => some [UInt8.ofNat d.type, 0, 0, 0]
  | some .feature => some [UInt8.ofNat d.type, UInt8.ofNat (d.feature_ack.toNat * 128 + d.feature_support / 65536),
      UInt8.ofNat (d.feature_support / 256 % 256), UInt8.ofNat (d.feature_support % 256)]
  | some .fc => some [UInt8.ofNat (d.type + d.vc), UInt8.ofNat (d.hdr_scale * 64 + d.hdr_fc / 4),
      UInt8.ofNat (d.hdr_fc % 4 * 64 + d.data_scale * 16 + d.data_fc / 256), UInt8.ofNat (d.data_fc % 256)]
  | none => none

/-- Fields of the kind are in range; fields the kind does not carry have their default value. -/
def DllpEncodable (d : Dllp) : Prop :=
  match dllpKind d.type with
  | some .ackNak => d.seq < 4096 ∧ d.vc = 0 ∧ d.hdr_scale = 0 ∧ d.hdr_fc = 0 ∧ d.data_scale = 0 ∧ d.data_fc = 0 ∧
      d.feature_support = 0 ∧ d.feature_ack = false
  | some .plain => d.seq = 0 ∧ d.vc = 0 ∧ d.hdr_scale = 0 ∧ d.hdr_fc = 0 ∧ d.data_scale = 0 ∧ d.data_fc = 0 ∧
      d.feature_support = 0 ∧ d.feature_ack = false
  | some .feature => d.seq = 0 ∧ d.vc = 0 ∧ d.hdr_scale = 0 ∧ d.hdr_fc = 0 ∧ d.data_scale = 0 ∧ d.data_fc = 0 ∧
      d.feature_support < 2 ^ 23
  | some .fc => d.seq = 0 ∧ d.vc < 8 ∧ d.hdr_scale < 4 ∧ d.hdr_fc < 256 ∧ d.data_scale < 4 ∧ d.data_fc < 4096 ∧
      d.feature_support = 0 ∧ d.feature_ack = false
  | none => False

/-- Bit `i` of a packet in transmission order: least significant bit of each byte first. -/
def wireBit (pkt : List UInt8) (i : Nat) : Bool :=
  match pkt[i / 8]? with
  | some b => b.toNat.testBit (i % 8)
  | none => false

/-- `pkt'` is `pkt` hit by an error burst: they have the same length, differ somewhere, and all differing bits lie
within `w` consecutive bits. -/
def BurstError (w : Nat) (pkt pkt' : List UInt8) : Prop :=
  pkt'.length = pkt.length ∧ (∃ i, wireBit pkt i ≠ wireBit pkt' i) ∧
  ∃ p, ∀ i, wireBit pkt i ≠ wireBit pkt' i → p ≤ i ∧ i < p + w

end Pcie.Spec
