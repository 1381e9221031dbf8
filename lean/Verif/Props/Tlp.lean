/-
C04-C08: TLP serialisation, copying, byte enables, payload alignment, lower address.
-/
import Verif.Lemmas.TlpUnpack
import Verif.Lemmas.Be
namespace Pcie
open Tlp

/-! ### C04 -/

/-- C04: `pack` produces the wire format of the PCIe specification followed by the payload. -/
theorem C04_pack_wire_format (ty : TlpType) (t : Tlp) (h : Spec.Encodable ty t) :
    ∃ hdr, Spec.header ty t = some hdr ∧ t.pack = .ok (hdr ++ t.data) ∧ hdr.length = t.headerSize := by
  have hbody := h.body
  have hfmt : t.fmt = ty.value.1 := by rw [← h.fmt_type]
  have hex : ∃ hdr, Spec.header ty t = some hdr := by
    unfold Spec.header
    cases hk : Spec.kind ty with
    | none => simp [hk] at hbody
    | some k => cases k <;> exact ⟨_, rfl⟩
  obtain ⟨hdr, hh⟩ := hex
  refine ⟨hdr, hh, ?_, ?_⟩
  · simp only [pack, packHeader_eq t ty h hdr hh, bind, Except.bind]
    split
    · rfl
    · rename_i hd
      have hv := value_lt ty
      have : t.data = [] := by
        apply h.data
        simp only [hasData, TlpType.THREE_DW_DATA, TlpType.FOUR_DW_DATA, decide_eq_true_eq] at hd
        cases ty <;> simp [Spec.kind] at hbody <;> simp [TlpType.value] at hfmt <;> simp_all
      rw [this, List.append_nil]
  · cases ty <;> simp [Spec.kind] at hbody <;> simp [TlpType.value] at hfmt <;>
      simp only [Spec.header, Spec.kind, Option.some.injEq] at hh <;> subst hh <;>
      simp [Spec.cfgHeader, Spec.header3dw, Spec.header4dw, Spec.cplHeader, Spec.header0, Spec.requestDw1,
        Spec.idBytes, headerSize, TlpType.FOUR_DW, TlpType.FOUR_DW_DATA, hfmt]

/-- C04: unpacking the packed bytes gives the same TLP back, for every encodable TLP of every packable type. -/
theorem C04_unpack_pack (ty : TlpType) (t : Tlp) (h : Spec.Encodable ty t) :
    ∃ pkt, t.pack = .ok pkt ∧ unpack pkt = .ok t := by
  obtain ⟨hdr, hh, hp, hl⟩ := C04_pack_wire_format ty t h
  refine ⟨_, hp, ?_⟩
  have hu := unpackHeader_packHeader t ty h hdr t.data (packHeader_eq t ty h hdr hh)
  have hs : ({ t with data := [] } : Tlp).headerSize = hdr.length := by rw [hl]; rfl
  simp only [unpack, hu, bind, Except.bind, hs, List.drop_left]

/-- C04: message and prefix TLPs, and unknown format/type pairs, are rejected by `pack` and `unpack`. -/
theorem C04_reject_unsupported (t : Tlp) (h : ∀ ty, t.fmtType = some ty → Spec.kind ty = none) (pkt : List UInt8) :
    t.pack ≠ .ok pkt := by
  intro hp
  simp only [pack, packHeader, bind, Except.bind] at hp
  cases hd : packL t.headerDw0 with
  | error e => simp [hd] at hp
  | ok p0 =>
    cases hf : t.fmtType with
    | none => simp [hd, hf] at hp
    | some ty =>
      have := h ty hf
      have h1 : ty.isReq = false ∧ ty.isCpl = false := by
        cases ty <;> simp [Spec.kind] at this <;> decide
      simp [hd, hf, h1] at hp

/-- A 4 KiB memory write with a 64-bit address, 10-bit tag and every flag set. -/
def exampleTlp : Tlp :=
  { fmt := 3, type := 0, tc := 5, ln := true, th := true, td := true, ep := true, attr := 7, at_ := 2,
    length := 1024, requester_id := ⟨0xab, 0x1f, 7⟩, tag := 0x3a5, first_be := 0xc, last_be := 0x3,
    address := 0x123456789abcd000, ph := 3, data := List.replicate 4096 0x5a }

example : Spec.Encodable .MEM_WRITE_64 exampleTlp := by
  constructor
  case length => simp only [exampleTlp]; decide
  case body => simp only [exampleTlp, Spec.kind]; decide
  case data => simp only [exampleTlp]; decide
  all_goals decide

/-- A completion with the maximum byte count. -/
example : Spec.Encodable .CPL_DATA
    { fmt := 2, type := 0xa, length := 1024, byte_count := 4096, tag := 0x301, lower_address := 0x7c,
      completer_id := ⟨1, 2, 3⟩, requester_id := ⟨4, 5, 6⟩, data := [1, 2, 3, 4] } := by
  constructor
  case length => decide
  case body => simp only [Spec.kind]; decide
  all_goals decide

/-! ### C05 -/

/-- C05 is violated: the copy constructor drops the `th` flag. -/
theorem C05_copy_violated : ∃ t : Tlp, t.copy ≠ t := ⟨{ th := true }, by decide⟩

/-- C05 is violated: `==` does not see the `th` flag, although it is part of the packed header. -/
theorem C05_eq_violated : ∃ a b : Tlp, pyEq a b = true ∧ a.th ≠ b.th ∧ a.pack ≠ b.pack := by
  refine ⟨{ length := 1 }, { length := 1, th := true }, by decide, by decide, ?_⟩
  intro h
  have : (({ length := 1 } : Tlp).pack).toOption = (({ length := 1, th := true } : Tlp).pack).toOption := by rw [h]
  revert this; decide +kernel

/-- C05, the part that holds: every field except `th` is copied (missing: `th`). -/
theorem C05_copy_partial (t : Tlp) : t.copy = { t with th := false } := rfl

/-- C05, the part that holds: a TLP without `th` is copied exactly. -/
theorem C05_copy_no_th_partial (t : Tlp) (h : t.th = false) : t.copy = t := by
  cases t; simp only at h; subst h; rfl

/-- C05, the part that holds: two TLPs compare equal exactly when they agree on every field except `th`. -/
theorem C05_eq_partial (a b : Tlp) : pyEq a b = true ↔ { a with th := false } = { b with th := false } := by
  cases a; cases b
  simp only [pyEq, Tlp.mk.injEq, decide_eq_true_eq]
  constructor
  · rintro ⟨rfl, rfl, rfl, rfl, rfl, rfl, rfl, rfl, rfl, rfl, rfl, rfl, rfl, rfl, rfl, rfl, rfl, rfl, rfl, rfl, rfl, rfl⟩
    simp
  · rintro ⟨rfl, rfl, rfl, rfl, -, rfl, rfl, rfl, rfl, rfl, rfl, rfl, rfl, rfl, rfl, rfl, rfl, rfl, rfl, rfl, rfl, rfl, rfl⟩
    simp

/-! ### C06 -/

/-- C06: after `set_addr_be(addr, length)` the request enables exactly the bytes `addr .. addr+length-1`. -/
theorem C06_enabled_bytes (t : Tlp) (addr length a : Nat) :
    Spec.byteEnabled (t.setAddrBe addr length).1 a ↔ addr ≤ a ∧ a < addr + length :=
  byteEnabled_setAddrBe t addr length a

/-- C06: nothing but the address, length and byte enables changes; the address is dword aligned, the byte enables
are 4-bit values, the length is at least 1, and the last byte enables of a one-dword request are zero. -/
theorem C06_frame (t : Tlp) (addr length : Nat) :
    let t' := (t.setAddrBe addr length).1
    t' = { t with address := t'.address, length := t'.length, first_be := t'.first_be, last_be := t'.last_be } ∧
    t'.address = addr - addr % 4 ∧ 1 ≤ t'.length ∧ t'.first_be < 16 ∧ t'.last_be < 16 ∧
    (t'.length = 1 → t'.last_be = 0) := by
  have hb : 0xf <<< (addr % 4) &&& 0xf < 16 := by rw [and_m4]; omega
  have hl : ∀ l, 0xf >>> l < 16 := by
    intro l; rw [Nat.shiftRight_eq_div_pow]
    exact Nat.lt_of_le_of_lt (Nat.div_le_self _ _) (by omega)
  rcases Nat.eq_zero_or_pos length with h0 | h0
  · subst h0; rw [setAddrBe_zero]; dsimp only; refine ⟨rfl, by omega, by omega, by omega, by omega, fun _ => rfl⟩
  · by_cases h1 : addr % 4 + length ≤ 4
    · rw [setAddrBe_one t addr length h0 h1]; dsimp only
      refine ⟨rfl, by omega, by omega, ?_, by omega, fun _ => rfl⟩
      exact Nat.lt_of_le_of_lt Nat.and_le_left hb
    · rw [setAddrBe_many t addr length (by omega)]; dsimp only
      refine ⟨rfl, by omega, by omega, hb, hl _, by omega⟩

/-- C06: the dword length is the least that covers the range (and at least 1). -/
theorem C06_length_least (t : Tlp) (addr length n : Nat) (hn : 1 ≤ n)
    (hcover : ∀ a, addr ≤ a → a < addr + length → a < (t.setAddrBe addr length).1.address + 4 * n) :
    (t.setAddrBe addr length).1.length ≤ n := by
  rcases Nat.eq_zero_or_pos length with h0 | h0
  · subst h0; rw [setAddrBe_zero]; exact hn
  · have hc := hcover (addr + length - 1) (by omega) (by omega)
    by_cases h1 : addr % 4 + length ≤ 4
    · rw [setAddrBe_one t addr length h0 h1]; exact hn
    · rw [setAddrBe_many t addr length (by omega)] at hc ⊢
      simp only at hc ⊢; omega

/-- C06: a zero length gives a one-dword request with no byte enabled. -/
theorem C06_zero_length (t : Tlp) (addr : Nat) :
    let t' := (t.setAddrBe addr 0).1
    t'.length = 1 ∧ t'.first_be = 0 ∧ t'.last_be = 0 ∧ ∀ a, ¬ Spec.byteEnabled t' a := by
  refine ⟨by rw [setAddrBe_zero], by rw [setAddrBe_zero], by rw [setAddrBe_zero], ?_⟩
  intro a; rw [C06_enabled_bytes]; omega

/-- C06: the receiver recovers the byte address and the byte length from the header. -/
theorem C06_decode (t : Tlp) (addr length : Nat) (h : 0 < length) :
    let t' := (t.setAddrBe addr length).1
    t'.address + t'.firstBeOffset = addr ∧ t'.beByteCount = length := by
  have ho := offsets_setAddrBe t addr length h
  have hf := C06_frame t addr length
  simp only at hf ⊢
  obtain ⟨-, ha, -⟩ := hf
  refine ⟨by rw [ha, ho.1]; omega, ?_⟩
  unfold beByteCount
  rw [ho.1, ho.2]
  by_cases h1 : addr % 4 + length ≤ 4
  · rw [setAddrBe_one t addr length h h1]; simp only; omega
  · rw [setAddrBe_many t addr length (by omega)]; simp only; omega

example : let t' := (({} : Tlp).setAddrBe 0x1003 10).1
    t'.address = 0x1000 ∧ t'.length = 4 ∧ t'.first_be = 8 ∧ t'.last_be = 1 := by decide +kernel

/-! ### C07 -/

/-- C07: after `set_addr_be_data(addr, data)` the payload is `4 * length` bytes, the byte for address `addr + i`
is `data[i]`, and the header fields are those of `set_addr_be`. -/
theorem C07_payload (t : Tlp) (addr : Nat) (data : List UInt8) :
    let t' := t.setAddrBeData addr data
    t'.data.length = 4 * t'.length ∧
    (∀ i, (h : i < data.length) → t'.data[addr + i - t'.address]? = some data[i]) ∧
    { t' with data := t.data } = (t.setAddrBe addr data.length).1 := by
  have hfst : (t.setAddrBe addr data.length).2.1 = addr % 4 := rfl
  have hsnd : (t.setAddrBe addr data.length).2.2 = 3 - (addr + data.length + 3) % 4 := rfl
  obtain ⟨hf, ha, h1, -⟩ := C06_frame t addr data.length
  have hlen : 4 * (t.setAddrBe addr data.length).1.length =
      if data.length = 0 then 4 else addr % 4 + data.length + (3 - (addr + data.length + 3) % 4) := by
    split
    · rename_i h0; rw [h0, setAddrBe_zero]; simp only [Nat.mul_one]
    · rename_i h0
      by_cases h2 : addr % 4 + data.length ≤ 4
      · rw [setAddrBe_one t addr data.length (by omega) h2]; simp only; omega
      · rw [setAddrBe_many t addr data.length (by omega)]; simp only; omega
  unfold setAddrBeData
  simp only [hfst, hsnd]
  generalize hT : (t.setAddrBe addr data.length).1 = T at *
  by_cases hz : (List.replicate (addr % 4) (0 : UInt8) ++ data ++
      List.replicate (3 - (addr + data.length + 3) % 4) 0).length = 0
  · simp only [hz, if_true]
    simp only [List.length_append, List.length_replicate] at hz
    have hd : data = [] := List.eq_nil_of_length_eq_zero (by omega)
    subst hd
    simp only [List.length_nil, if_true] at hlen
    refine ⟨by simp only [List.length_cons, List.length_nil]; omega, ?_, by rw [hf]⟩
    intro i h; simp at h
  · simp only [hz, if_false]
    simp only [List.length_append, List.length_replicate] at hz
    refine ⟨?_, ?_, by rw [hf]⟩
    · rw [hlen]
      simp only [List.length_append, List.length_replicate]
      split
      · omega
      · rfl
    · intro i h
      have e : addr + i - T.address = addr % 4 + i := by rw [ha]; omega
      rw [e, List.append_assoc, List.getElem?_append_right (by simp)]
      rw [List.getElem?_append_left (by simp; exact h)]
      simp [h]

/-- C07: every payload byte that does not carry a byte of `data` is disabled. -/
theorem C07_other_bytes_disabled (t : Tlp) (addr : Nat) (data : List UInt8) (a : Nat) :
    Spec.byteEnabled (t.setAddrBeData addr data) a ↔ addr ≤ a ∧ a < addr + data.length := by
  obtain ⟨-, -, h⟩ := C07_payload t addr data
  rw [← C06_enabled_bytes t addr data.length a, ← h]
  exact Iff.rfl

example : (({} : Tlp).setAddrBeData 0x1003 [1, 2, 3]).data = [0, 0, 0, 1, 2, 3, 0, 0] := by decide +kernel

/-! ### C08 -/

/-- C08 is violated: for a read of one byte at address 0x1001 the helper returns 0, not 1. -/
theorem C08_lower_address_violated : ∃ (t : Tlp) (a : Nat), Spec.FirstEnabled t a ∧ t.lowerAddress ≠ a % 128 := by
  refine ⟨(({} : Tlp).setAddrBe 0x1001 1).1, 0x1001, ?_, by decide⟩
  constructor
  · rw [C06_enabled_bytes]; omega
  · intro b hb; rw [C06_enabled_bytes] at hb; omega

/-- C08, exact extent of the defect: for every request made by `set_addr_be` with a non-zero length the helper is
right exactly when the first byte is dword aligned (missing: unaligned first bytes). -/
theorem C08_lower_address_partial (t : Tlp) (addr length : Nat) (h : 0 < length) :
    (t.setAddrBe addr length).1.lowerAddress = addr % 128 ↔ addr % 4 = 0 := by
  have ho := (offsets_setAddrBe t addr length h).1
  obtain ⟨-, ha, -⟩ := C06_frame t addr length
  unfold lowerAddress
  rw [ho, ha]
  have key : ∀ r, r < 4 → (addr - addr % 4) &&& (0x7c + r) = (addr / 4 % 32) * 4 := by
    intro r hr
    have e : addr - addr % 4 = (addr / 4) <<< 2 := by rw [Nat.shiftLeft_eq]; omega
    have e2 : 0x7c + r = (31 <<< 2) ||| r := by rw [shl_or_add r 31 2 (by omega)]
    rw [e, e2, Nat.and_or_distrib_left, ← Nat.shiftLeft_and_distrib]
    have e3 : (addr / 4) <<< 2 &&& r = 0 := by
      apply Nat.eq_of_testBit_eq; intro i
      rw [Nat.testBit_and, Nat.testBit_shiftLeft, Nat.zero_testBit]
      by_cases hi : 2 ≤ i
      · rw [Nat.testBit_lt_two_pow (Nat.lt_of_lt_of_le hr (Nat.pow_le_pow_right (by omega) hi : 2 ^ 2 ≤ 2 ^ i)),
          Bool.and_false]
      · simp [hi]
    rw [e3, Nat.or_zero, and_m5, Nat.shiftLeft_eq]
  rw [key _ (Nat.mod_lt _ (by omega))]
  omega

example : (({} : Tlp).setAddrBe 0x10a4 7).1.lowerAddress = 0x24 := by decide +kernel

end Pcie
