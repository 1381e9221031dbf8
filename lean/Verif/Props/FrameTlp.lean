import Verif.Lemmas.FrameTlp
import Verif.Props.Tlp
/-
C42: Intel frames carry TLPs.
-/
namespace Pcie
open Tlp Spec

/-- A Stratix 10 frame made from a TLP converts back to the same TLP, for every TLP that can be encoded. -/
theorem C42_s10_tlp (ty : TlpType) (t : Tlp) (h : Encodable ty t) (hd : t.data.length % 4 = 0) :
    ∃ f, S10Frame.fromTlp t = .ok f ∧ f.toTlp = .ok t ∧ f.checkParity = true ∧
      f.data.length = t.headerSizeDw + t.data.length / 4 := by
  obtain ⟨hdr, h1, h2, _⟩ := packHeader_length t ty h
  obtain ⟨hw, a1, a2, a3, a4⟩ := beDwords_ok hdr (by omega)
  obtain ⟨dw, b1, b2, b3, b4⟩ := leDwords_ok t.data hd
  refine ⟨S10Frame.updateParity { data := hw ++ dw }, ?_, ?_, ?_, ?_⟩
  · simp only [S10Frame.fromTlp, h1, a1, b1, bind, Except.bind]; rfl
  · have hl : hw.length = t.headerSizeDw := by omega
    have h5 : hw.length ≤ 5 := by rw [hl, headerSizeDw]; split <;> omega
    have hx : ∃ x, packDwords packL ((hw ++ dw).take 5) = .ok (hdr ++ x) := by
      rw [List.take_append, List.take_of_length_le h5]
      obtain ⟨x, hx⟩ := packDwords_some (dw.take (5 - hw.length)) (fun w hw => b4 w (List.mem_of_mem_take hw))
      exact ⟨x, packDwords_append a2 hx⟩
    obtain ⟨x, hx⟩ := hx
    have hu := unpackHeader_packHeader t ty h hdr x h1
    simp only [S10Frame.toTlp, S10Frame.updateParity, hx, hu, bind, Except.bind]
    have : (hw ++ dw).drop ({ t with data := [] } : Tlp).headerSizeDw = dw := by
      rw [show ({ t with data := [] } : Tlp).headerSizeDw = t.headerSizeDw from rfl, ← hl, List.drop_left]
    simp only [this, b2]
    rfl
  · simp [S10Frame.updateParity, S10Frame.checkParity]
  · simp only [S10Frame.updateParity, List.length_append]; omega

/-- Likewise for P-Tile frames. -/
theorem C42_ptile_tlp (ty : TlpType) (t : Tlp) (h : Encodable ty t) (hd : t.data.length % 4 = 0) :
    ∃ f, PTileFrame.fromTlp t = .ok f ∧ f.toTlp = .ok t ∧ f.checkParity = true ∧ f.data.length = t.data.length / 4 := by
  obtain ⟨hdr, h1, h2, _⟩ := packHeader_length t ty h
  obtain ⟨dw, b1, b2, b3, b4⟩ := leDwords_ok t.data hd
  refine ⟨PTileFrame.updateParity { hdr := fromBytes (ljust16 hdr) .big, data := dw }, ?_, ?_, ?_, ?_⟩
  · simp only [PTileFrame.fromTlp, h1, b1, bind, Except.bind]; rfl
  · have hl : (ljust16 hdr).length = 16 := by
      have : t.headerSizeDw ≤ 4 := by rw [headerSizeDw]; split <;> omega
      simp only [ljust16, List.length_append, List.length_replicate]; omega
    have hx := toBytes_fromBytes .big (ljust16 hdr)
    rw [hl] at hx
    have hu := unpackHeader_packHeader t ty h hdr (List.replicate (16 - hdr.length) 0) h1
    simp only [PTileFrame.toTlp, PTileFrame.updateParity, hx, bind, Except.bind]
    rw [show unpackHeader (ljust16 hdr) = _ from hu]
    simp only [b2]
    rfl
  · simp [PTileFrame.updateParity, PTileFrame.checkParity]
  · simp only [PTileFrame.updateParity]; omega

/- The hypotheses can be met: the 4 KiB write of C04; a frame of 1028 dwords. -/
example : exampleTlp.data.length % 4 = 0 := by rw [exampleTlp, List.length_replicate]

/-- A write of two dwords. -/
def frameTlp : Tlp :=
  { fmt := 2, type := 0, length := 2, address := 0x12345678, first_be := 15, last_be := 15, tag := 7,
    requester_id := ⟨1, 0, 0⟩, data := [1, 2, 3, 4, 5, 6, 7, 8] }

example : (S10Frame.fromTlp frameTlp).toOption.map (·.data) =
    some [0x40000002, 0x010007ff, 0x12345678, 0x04030201, 0x08070605] := by decide +kernel
example : (PTileFrame.fromTlp frameTlp).toOption.map (fun f => (f.hdr, f.data)) =
    some (0x40000002010007ff1234567800000000, [0x04030201, 0x08070605]) := by decide +kernel

end Pcie
