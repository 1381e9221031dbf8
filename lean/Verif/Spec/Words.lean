/- Specification of the word helpers. -/
import Verif.Model.Words
namespace Pcie.Spec
open Pcie

/-- The power of 256 that byte `i` of a word of `ws` bytes stands for. -/
def place (o : Order) (ws i : Nat) : Nat :=
  match o with
  | .little => i
  | .big => ws - 1 - i

/-- `bytes` is the encoding of `words`: word `k` takes the bytes `ws * k` to `ws * k + ws - 1`, each of which is one of its
digits to the base 256. -/
def Encodes (o : Order) (ws : Nat) (words : List Nat) (bytes : List UInt8) : Prop :=
  bytes.length = ws * words.length ∧ ∀ k w, words[k]? = some w → w < 256 ^ ws ∧
    ∀ i < ws, ∃ b, bytes[ws * k + i]? = some b ∧ b.toNat = w / 256 ^ place o ws i % 256

/-- Reading what was just written returns it: the range is ordinary storage. -/
def ReadsBack {W : Type} (io : ByteIo W) (w : W) (addr length : Nat) : Prop :=
  ∀ w' data, data.length = length → io.write w addr data = .ok w' → ∃ w'', io.read w' addr length = .ok (w'', data)

end Pcie.Spec
