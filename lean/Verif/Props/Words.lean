import Verif.Lemmas.Words
/-
C46: word access agrees with byte access.
-/
namespace Pcie
open Spec
variable {W : Type} (io : ByteIo W)

/-- Writing words writes the bytes that encode them, at the same address, in one access. -/
theorem C46_write (s : W) (addr : Nat) (words : List Nat) (o : Order) (ws : Nat) (h : ∀ w ∈ words, w < 256 ^ ws) :
    ∃ bytes, Encodes o ws words bytes ∧ io.writeWords s addr words o ws = io.write s addr bytes :=
  ⟨_, encodes_enc o ws words h, by rw [ByteIo.writeWords, encode_ok o ws words [] h, ok_bind, List.nil_append]⟩

/-- A word that does not fit raises, and nothing is written. -/
theorem C46_write_range (s : W) (addr : Nat) (words : List Nat) (o : Order) (ws : Nat) (h : ∃ w ∈ words, 256 ^ ws ≤ w) :
    io.writeWords s addr words o ws = .error "OverflowError" := by
  rw [ByteIo.writeWords, encode_error o ws words [] h, error_bind]

/-- Reading words reads the bytes in one access and returns the words that they encode. -/
theorem C46_read (s s' : W) (addr count : Nat) (o : Order) (ws : Nat) (bytes : List UInt8)
    (h : io.read s addr (count * ws) = .ok (s', bytes)) (hl : bytes.length = count * ws) :
    ∃ words, io.readWords s addr count o ws = .ok (s', words) ∧ words.length = count ∧ Encodes o ws words bytes :=
  ⟨_, by rw [ByteIo.readWords, h, ok_bind]; rfl, by simp, encodes_read o ws count bytes hl⟩

/-- The encoding determines the words. -/
theorem C46_unique {o : Order} {ws : Nat} {l l' : List Nat} {bytes : List UInt8} (h : Encodes o ws l bytes)
    (h' : Encodes o ws l' bytes) (hl : l.length = l'.length) : l = l' := encodes_unique h h' hl

/-- Where bytes read back as written, words read back as written, for every word size and byte order. -/
theorem C46_roundtrip (s s' : W) (addr : Nat) (words : List Nat) (o : Order) (ws : Nat)
    (hs : ReadsBack io s addr (words.length * ws)) (h : io.writeWords s addr words o ws = .ok s') :
    ∃ s'', io.readWords s' addr words.length o ws = .ok (s'', words) := by
  by_cases hr : ∀ w ∈ words, w < 256 ^ ws
  · obtain ⟨bytes, h1, h2⟩ := C46_write io s addr words o ws hr
    have hl : bytes.length = words.length * ws := by rw [h1.1, Nat.mul_comm]
    obtain ⟨s'', h3⟩ := hs s' bytes hl (by rw [← h2, h])
    obtain ⟨words', h4, h5, h6⟩ := C46_read io s' s'' addr words.length o ws bytes h3 hl
    refine ⟨s'', ?_⟩
    rw [h4, C46_unique h6 h1 h5]
  · rw [C46_write_range io s addr words o ws (by simpa using hr)] at h
    cases h

/-- The helpers for dwords, qwords and single words are the helper for words with this word size and, for the single ones, a
list of one. -/
theorem C46_sizes (s : W) (addr count v : Nat) (o : Order) (words : List Nat) :
    io.readDwords s addr count o = io.readWords s addr count o 4 ∧ io.readQwords s addr count o = io.readWords s addr count o 8 ∧
    io.writeDwords s addr words o = io.writeWords s addr words o 4 ∧ io.writeQwords s addr words o = io.writeWords s addr words o 8 ∧
    io.writeWord s addr v o = io.writeWords s addr [v] o 2 ∧ io.writeDword s addr v o = io.writeWords s addr [v] o 4 ∧
    io.writeQword s addr v o = io.writeWords s addr [v] o 8 ∧ (v < 256 → io.writeByte s addr v = io.writeWords s addr [v] o 1) :=
  ⟨rfl, rfl, rfl, rfl, rfl, rfl, rfl, fun hv => by
    rw [ByteIo.writeByte, if_pos hv, ByteIo.writeWords, encode_ok o 1 [v] [] (by simpa using hv), ok_bind]
    cases o <;> rfl⟩

/-- Likewise for single reads. -/
theorem C46_single (s s' : W) (addr v : Nat) (o : Order) (ws : Nat) (h : io.readWords s addr 1 o ws = .ok (s', [v])) :
    io.readWord s addr o ws = .ok (s', v) ∧ (ws = 4 → io.readDword s addr o = .ok (s', v)) ∧
    (ws = 8 → io.readQword s addr o = .ok (s', v)) := by
  refine ⟨by rw [ByteIo.readWord, h]; rfl, ?_, ?_⟩
  · rintro rfl; rw [ByteIo.readDword, ByteIo.readDwords, h]; rfl
  · rintro rfl; rw [ByteIo.readQword, ByteIo.readQwords, h]; rfl

theorem C46_byte (s s' : W) (addr : Nat) (b : UInt8) (h : io.read s addr 1 = .ok (s', [b])) : io.readByte s addr = .ok (s', b.toNat) := by
  rw [ByteIo.readByte, h]; rfl

/-- The accesses to a capability are the accesses to configuration space at the offset of the capability, and raise if there
is no such capability. -/
theorem C46_capability (s : W) (off addr count : Nat) (o : Order) (ws : Nat) (words : List Nat) (h : off ≠ 0) :
    (io.atCap (some off)).readWords s addr count o ws = io.readWords s (addr + off) count o ws ∧
    (io.atCap (some off)).writeWords s addr words o ws = io.writeWords s (addr + off) words o ws ∧
    (io.atCap none).readWords s addr count o ws = .error "Capability not found" := by
  obtain ⟨k, rfl⟩ : ∃ k, off = k + 1 := ⟨off - 1, by omega⟩
  exact ⟨rfl, rfl, rfl⟩

/-- A flat memory. -/
def exIo : ByteIo (Nat → UInt8) where
  read m addr n := .ok (m, (List.range n).map fun i => m (addr + i))
  write m addr d := .ok fun a => if addr ≤ a then (d[a - addr]?).getD (m a) else m a

/-- The hypothesis of the round trip can be met. -/
example (m : Nat → UInt8) (addr n : Nat) : ReadsBack exIo m addr n := by
  intro m' data hd h
  cases h
  refine ⟨_, congrArg Except.ok (Prod.ext rfl ?_)⟩
  apply List.ext_getElem
  · simp [hd]
  · intro i h1 h2
    simp [List.getElem?_eq_getElem h2]

example : (do
    let m ← exIo.writeWords (fun _ => 0) 3 [0x1234, 0xabcd] .big
    let (_, b) ← exIo.read m 3 4
    let (_, l) ← exIo.readDwords m 3 1
    return (b, l) : Py (List UInt8 × List Nat)).toOption = some ([0x12, 0x34, 0xab, 0xcd], [0xcdab3412]) := by decide +kernel

end Pcie
