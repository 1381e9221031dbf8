import Verif.Lemmas.UsTlp
import Verif.Lemmas.Parity
import Verif.Props.UsStream
/-
C39: UltraScale descriptors carry TLPs. Then, with C40: TLPs arrive over the stream interfaces.
-/
namespace Pcie
open Tlp Spec

/-- The packed frame: the words of the descriptor of the interface followed by the payload, with the right parity and sideband values. -/
theorem C39_layout (k : Us.Kind) (ty : TlpType) (u : UsTlp) (h : UsCarries k ty u) :
    ∃ f, usPack k u = .ok f ∧ f.data = usWords k ty u ++ dwords u.tlp.data ∧ f.checkParity = true ∧ f.discontinue = u.discontinue ∧
      (k = .cq ∨ k = .rq → f.firstBe = u.tlp.first_be ∧ f.lastBe = u.tlp.last_be) ∧ (k = .rq → f.seqNum = u.seqNum) ∧
      (k = .cq → f.byteEn = [0, 0, 0, 0] ++ payloadEns u.tlp) := by
  cases k with
  | cq => exact ⟨_, UsTlp.packCq_eq h.1 h.2.1 h.2.2.1 h.2.2.2, rfl, UsTlp.parity_ok _, rfl, fun _ => ⟨rfl, rfl⟩, nofun, fun _ => rfl⟩
  | rq => exact ⟨_, UsTlp.packRq_eq h, rfl, UsTlp.parity_ok _, rfl, fun _ => ⟨rfl, rfl⟩, fun _ => rfl, nofun⟩
  | cc => exact ⟨_, UsTlp.packCc_eq h.1 h.2, rfl, UsTlp.parity_ok _, rfl, nofun, nofun, nofun⟩
  | rc => exact ⟨_, UsTlp.packRc_eq h.1 h.2.1 h.2.2, rfl, UsTlp.parity_ok _, rfl, nofun, nofun, nofun⟩

/-- Unpacking the packed frame, with or without parity check, gives the TLP back: all that the interface carries of it. -/
theorem C39_roundtrip (k : Us.Kind) (ty : TlpType) (u : UsTlp) (h : UsCarries k ty u) (check : Bool) :
    ∃ f, usPack k u = .ok f ∧ usUnpack k f check = .ok (usCarried k u) := by
  obtain ⟨f, h1, h2, h3, h4, h5, h6, h7⟩ := C39_layout k ty u h
  refine ⟨f, h1, ?_⟩
  cases k with
  | cq => exact UsTlp.unpackCq_eq h.1 h.2.1 h.2.2.1 h.2.2.2 f h2 (h5 (.inl rfl)).1 (h5 (.inl rfl)).2 h4 (h7 rfl) check fun _ => h3
  | rq => exact UsTlp.unpackRq_eq h f h2 (h5 (.inr rfl)).1 (h5 (.inr rfl)).2 h4 (h6 rfl) check fun _ => h3
  | cc => exact UsTlp.unpackCc_eq h.1 h.2 f h2 h4 check fun _ => h3
  | rc =>
    refine UsTlp.unpackRc_eq h.1 h.2.1 h.2.2 f h2 h4 ?_ check fun _ => h3
    have := h1.symm.trans (UsTlp.packRc_eq h.1 h.2.1 h.2.2)
    cases this
    rfl

/-- What comes back, field by field. -/
theorem C39_fields (k : Us.Kind) (ty : TlpType) (u : UsTlp) (h : UsCarries k ty u) (check : Bool) :
    ∃ f v, usPack k u = .ok f ∧ usUnpack k f check = .ok v ∧ v.tlp.fmt = u.tlp.fmt ∧ v.tlp.type = u.tlp.type ∧ v.tlp.requester_id = u.tlp.requester_id ∧
      v.tlp.tag = u.tlp.tag ∧ v.tlp.tc = u.tlp.tc ∧ v.tlp.attr = u.tlp.attr ∧ v.tlp.length = u.tlp.length ∧ v.tlp.data = u.tlp.data ∧
      v.discontinue = u.discontinue ∧
      (k = .cq → v.tlp.completer_id.function = u.tlp.completer_id.function ∧ v.barId = u.barId ∧ v.barAperture = u.barAperture) ∧
      (k ≠ .cq → v.tlp.completer_id = u.tlp.completer_id ∧ v.tlp.ep = u.tlp.ep) ∧
      (k ≠ .rc → v.tlp.at_ = u.tlp.at_) ∧
      (k = .cq ∨ k = .rq → v.tlp.address = u.tlp.address ∧ v.tlp.first_be = u.tlp.first_be ∧ v.tlp.last_be = u.tlp.last_be) ∧
      (k = .cc ∨ k = .rc → v.tlp.status = u.tlp.status ∧ v.tlp.byte_count = u.tlp.byte_count ∧ v.tlp.lower_address = u.tlp.lower_address) ∧
      (k = .rq → v.requesterIdEnable = u.requesterIdEnable ∧ v.seqNum = u.seqNum) ∧
      (k = .cc → v.completerIdEnable = u.completerIdEnable) ∧
      (k = .rc → v.errorCode = u.errorCode ∧ v.requestCompleted = u.requestCompleted) := by
  obtain ⟨f, h1, h2⟩ := C39_roundtrip k ty u h check
  refine ⟨f, _, h1, h2, ?_⟩
  cases k <;> simp [usCarried, cqSeen, rqSeen, ccSeen, rcSeen]

/-- Byte enables of requester completions: of the bytes of the payload, those from the lower address on, as many as are left, are enabled; provided the last dword
has one of them. -/
theorem C39_rc_byte_enables (ty : TlpType) (u : UsTlp) (h : UsCarries .rc ty u) (hd : 0 < u.tlp.length)
    (hb : 4 * (u.tlp.length - 1) < u.tlp.byte_count + u.tlp.lower_address % 4) :
    ∃ f, usPack .rc u = .ok f ∧ f.byteEn.length = 3 + u.tlp.length ∧ f.byteEn.take 3 = [0, 0, 0] ∧ ∀ j, j < 4 * u.tlp.length →
      ((f.byteEn.getD (3 + j / 4) 0).testBit (j % 4) = true ↔
        u.tlp.lower_address % 4 ≤ j ∧ j < u.tlp.lower_address % 4 + u.tlp.byte_count) := by
  obtain ⟨n, hn⟩ : ∃ n, u.tlp.length = n + 1 := ⟨u.tlp.length - 1, by omega⟩
  have hp := h.1.payload
  rw [hn] at hp hb
  refine ⟨_, UsTlp.packRc_eq h.1 h.2.1 h.2.2, ?_, rfl, fun j hj => ?_⟩
  · show (UsTlp.rcByteEn u.tlp).length = _
    rw [UsTlp.rcByteEn_length h.1]
  · have := UsTlp.rcByteEn_bit hp hn (by omega) (i := j / 4) (k := j % 4) (by omega) (Nat.mod_lt _ (by decide))
    rw [Nat.div_add_mod] at this
    show ((UsTlp.rcByteEn u.tlp).getD (3 + j / 4) 0).testBit (j % 4) = true ↔ _
    rw [this, decide_eq_true_eq]

/-- Types that an interface does not support raise an exception: completions and messages on the request interfaces (and configuration requests on the completer
request interface), everything else on the completion interfaces. -/
theorem C39_unsupported (k : Us.Kind) (ty : TlpType) (u : UsTlp) (ht : (u.tlp.fmt, u.tlp.type) = ty.value)
    (h : match k with
      | .cq => kind ty ≠ some .req3 ∧ kind ty ≠ some .req4
      | .rq => kind ty ≠ some .req3 ∧ kind ty ≠ some .req4 ∧ kind ty ≠ some .cfg
      | _ => kind ty ≠ some .cpl) : ∃ e, usPack k u = .error e := by
  cases k <;> cases ty <;> simp [kind] at h <;>
    first
      | (simp only [usPack, UsTlp.packCq, fmtType_of_value ht]; exact ⟨_, rfl⟩)
      | (simp only [usPack, UsTlp.packRq, fmtType_of_value ht]; exact ⟨_, rfl⟩)
      | (simp only [usPack, UsTlp.packCc, fmtType_of_value ht]; exact ⟨_, rfl⟩)
      | (simp only [usPack, UsTlp.packRc, fmtType_of_value ht]; exact ⟨_, rfl⟩)

/-- What arrives over the stream interface unpacks to the TLP. -/
theorem C40_tlp_unpack (b : Us.Bus) (ty : TlpType) (u : UsTlp) (h : UsCarries b.kind ty u) (hs : UsSideband b u) (check : Bool) :
    ∃ f, usPack b.kind u = .ok f ∧ UsOk b.kind f ∧ f.discontinue = u.discontinue ∧
      ∀ r, usPlain r = usSeen b f → r.discontinue = u.discontinue → usUnpack b.kind r check = .ok (usCarried b.kind u) := by
  obtain ⟨f, h1, h2, h3, h4, h5, h6, h7⟩ := C39_layout b.kind ty u h
  refine ⟨f, h1, UsTlp.frame_ok h hs h1, h4, fun r hr hd => ?_⟩
  have e1 : r.data = f.data := show (usPlain r).data = (usSeen b f).data from congrArg _ hr
  have e2 : r.parity = f.parity := show (usPlain r).parity = (usSeen b f).parity from congrArg _ hr
  have e3 : r.firstBe = (usSeen b f).firstBe := show (usPlain r).firstBe = (usSeen b f).firstBe from congrArg _ hr
  have e4 : r.lastBe = (usSeen b f).lastBe := show (usPlain r).lastBe = (usSeen b f).lastBe from congrArg _ hr
  have e5 : r.byteEn = (usSeen b f).byteEn := show (usPlain r).byteEn = (usSeen b f).byteEn from congrArg _ hr
  have e6 : r.seqNum = (usSeen b f).seqNum := show (usPlain r).seqNum = (usSeen b f).seqNum from congrArg _ hr
  have e7 : r.checkParity = true := by
    rw [UsFrame.checkParity] at h3 ⊢; rw [e1, e2]; exact h3
  rw [h2] at e1
  obtain ⟨s1, s2⟩ := hs
  simp only [usSeen] at e3 e4 e5 e6
  cases hk : b.kind with
  | cq =>
    rw [hk] at h h1 e1 e3 e4 e5 h5 h7 s1
    have := h5 (.inl rfl)
    have := s1 (.inr rfl)
    refine UsTlp.unpackCq_eq h.1 h.2.1 h.2.2.1 h.2.2.2 r e1 ?_ ?_ hd ?_ check fun _ => e7
    · rw [e3, if_pos (.inr rfl)]; omega
    · rw [e4, if_pos (.inr rfl)]; omega
    · rw [e5, if_pos (by rfl)]; exact h7 rfl
  | rq =>
    rw [hk] at h h1 e1 e3 e4 e6 h5 h6 s1 s2
    have := h5 (.inr rfl)
    have := s1 (.inl rfl)
    refine UsTlp.unpackRq_eq h r e1 ?_ ?_ hd ?_ check fun _ => e7
    · rw [e3, if_pos (.inl rfl)]; omega
    · rw [e4, if_pos (.inl rfl)]; omega
    · have s3 := s2 rfl
      rw [e6, if_pos rfl, h6 rfl]
      split at s3 <;> rename_i h60
      · rw [if_pos h60]; omega
      · rw [if_neg h60]; omega
  | cc =>
    rw [hk] at h e1
    exact UsTlp.unpackCc_eq h.1 h.2 r e1 hd check fun _ => e7
  | rc =>
    rw [hk] at h h1 e1 e5
    refine UsTlp.unpackRc_eq h.1 h.2.1 h.2.2 r e1 hd ?_ check fun _ => e7
    rw [e5, if_pos (by rfl)]
    have := h1.symm.trans (UsTlp.packRc_eq h.1 h.2.1 h.2.2)
    cases this
    rfl

/-- TLPs over the stream interfaces: for every bus, every sequence of TLPs that the interface carries and every timing, the frames that the sink has received unpack
to what the interface carries of the TLPs that were sent, in order, without those that the source still holds. Missing: as in `C40_stream_partial`, and discontinued TLPs
on straddled buses. -/
theorem C40_tlps_partial (b : Us.Bus) (hb : UsBus b) (evs : List Us.Ev) (us : List UsTlp)
    (hs : (usSent evs).map Except.ok = us.map (usPack b.kind)) (hok : ∀ u ∈ us, (∃ ty, UsCarries b.kind ty u) ∧ UsSideband b u)
    (hd : b.segs = 1 ∨ ∀ u ∈ us, u.discontinue = false) (check : Bool) :
    ∃ s ts k fs, Us.Src.run b {} evs = .ok (s, ts) ∧ Us.Snk.run b (Us.Snk.init b) ts = .ok (k, fs) ∧ fs.length + (usHeld s).length = us.length ∧
      fs.map (fun f => usUnpack b.kind f check) = (us.take fs.length).map (fun u => .ok (usCarried b.kind u)) := by
  have hlen : (usSent evs).length = us.length := by have := congrArg List.length hs; simpa using this
  have key : ∀ (i : Nat) (f : UsFrame), (usSent evs)[i]? = some f → ∃ u ty, us[i]? = some u ∧ usPack b.kind u = .ok f ∧ UsCarries b.kind ty u ∧ UsSideband b u := by
    intro i f hf
    have h1 : (us.map (usPack b.kind))[i]? = some (Except.ok f) := by rw [← hs, List.getElem?_map, hf]; rfl
    rw [List.getElem?_map] at h1
    cases hu : us[i]? with
    | none => rw [hu] at h1; cases h1
    | some u =>
      rw [hu] at h1
      obtain ⟨⟨ty, g1⟩, g2⟩ := hok u (List.mem_of_getElem? hu)
      exact ⟨u, ty, rfl, Option.some.inj h1, g1, g2⟩
  have hfok : ∀ f ∈ usSent evs, UsOk b.kind f := by
    intro f hf
    obtain ⟨i, hi⟩ := List.getElem?_of_mem hf
    obtain ⟨u, ty, _, g2, g3, g4⟩ := key i f hi
    exact UsTlp.frame_ok g3 g4 g2
  obtain ⟨s, ts, k, fs, h1, h2, h3⟩ := C40_stream_partial b hb evs hfok
  obtain ⟨s', ts', k', fs', h1', h2', h3', h4⟩ := C40_discontinue_partial b hb evs hfok
  rw [h1] at h1'; cases h1'
  rw [h2] at h2'; cases h2'
  refine ⟨s, ts, k, fs, h1, h2, by omega, ?_⟩
  apply List.ext_getElem?
  intro i
  rw [List.getElem?_map, List.getElem?_map, List.getElem?_take]
  cases hr : fs[i]? with
  | none =>
    rw [if_neg (by have := List.getElem?_eq_none_iff.mp hr; omega)]; rfl
  | some r =>
    have hi := (List.getElem?_eq_some_iff.mp hr).1
    rw [if_pos hi]
    obtain ⟨f, hf⟩ : ∃ f, (usSent evs)[i]? = some f := ⟨_, List.getElem?_eq_getElem (by omega)⟩
    obtain ⟨u, ty, g1, g2, g3, g4⟩ := key i f hf
    obtain ⟨f', k1, _, k3, k4⟩ := C40_tlp_unpack b ty u g3 g4 check
    rw [k1] at g2; cases g2
    have e1 : (fs.map usPlain)[i]? = some (usPlain r) := by rw [List.getElem?_map, hr]; rfl
    have e2 : (fs.map usPlain ++ (usHeld s).map (usSeen b))[i]? = ((usSent evs).map (usSeen b))[i]? := by rw [h3]
    rw [List.getElem?_append_left (by simpa using hi), e1, List.getElem?_map, hf] at e2
    have e3 := (h4 i r f hr hf).2 (by
      rcases hd with hd | hd
      · exact .inl hd
      · refine .inr fun g hg => ?_
        obtain ⟨j, hj⟩ := List.getElem?_of_mem hg
        obtain ⟨v, tv, m1, m2, m3, m4⟩ := key j g hj
        obtain ⟨f2, m5, _, _, m6, _⟩ := C39_layout b.kind tv v m3
        rw [m2] at m5; cases m5
        rw [m6]; exact hd v (List.mem_of_getElem? m1))
    rw [g1]
    show some (usUnpack b.kind r check) = some _
    rw [k4 r (Option.some.inj e2) (by rw [e3, k3])]

/-- A write of two dwords to an address above 4 GiB. -/
def usWrite : UsTlp :=
  { tlp := { fmt := 3, type := 0, length := 2, address := 0x212345678, first_be := 0xe, last_be := 3, tag := 7, tc := 2, attr := 1, requester_id := ⟨1, 2, 3⟩
             completer_id := ⟨4, 5, 6⟩, ep := true, data := [1, 2, 3, 4, 5, 6, 7, 8] }
    barId := 2, barAperture := 20, requesterIdEnable := true, seqNum := 11 }

/-- A completion of two dwords with five bytes left. -/
def usData : UsTlp :=
  { tlp := { fmt := 2, type := 10, length := 2, byte_count := 5, lower_address := 0x41, tag := 7, requester_id := ⟨1, 2, 3⟩, completer_id := ⟨4, 5, 6⟩
             data := [1, 2, 3, 4, 5, 6, 7, 8] }
    requestCompleted := true, errorCode := 0 }

theorem usWrite_req : UsReq .MEM_WRITE_64 usWrite.tlp :=
  ⟨⟨rfl, by decide, by decide, by decide, by decide, by decide, by decide, by decide, rfl⟩, rfl, by simp [kind, usWrite]⟩

theorem usData_cpl : UsCpl .CPL_DATA usData.tlp :=
  ⟨⟨rfl, by decide, by decide, by decide, by decide, by decide, by decide, by decide, rfl⟩, rfl, by decide, by decide, rfl, by simp [usData]⟩

/- The hypotheses can be met. -/
example : UsCarries .cq .MEM_WRITE_64 usWrite ∧ UsCarries .rq .MEM_WRITE_64 usWrite ∧ UsSideband ⟨.rq, 512, 137, 2⟩ usWrite ∧ UsSideband ⟨.cq, 512, 183, 2⟩ usWrite :=
  ⟨⟨usWrite_req, by decide, by decide, by decide⟩, usWrite_req, by simp [UsSideband, usWrite], by simp [UsSideband, usWrite]⟩
example : UsCarries .cc .CPL_DATA usData ∧ UsCarries .rc .CPL_DATA usData ∧ 4 * (usData.tlp.length - 1) < usData.tlp.byte_count + usData.tlp.lower_address % 4 :=
  ⟨⟨usData_cpl, by decide⟩, ⟨usData_cpl, by decide, by decide⟩, by decide⟩
example : (UsTlp.packCq usWrite).toOption.map (·.data) =
    some [0x12345678, 0x2, 0x01130802, 0x14a20607, 0x04030201, 0x08070605] := by decide +kernel
example : (UsTlp.packRc usData).toOption.map (fun f => (f.data, f.byteEn)) =
    some ([0x40050041, 0x01130002, 0x00042e07, 0x04030201, 0x08070605], [0, 0, 0, 0xe, 3]) := by decide +kernel

/- The restriction to 64-bit forms for high addresses is needed: a 64-bit read of a low address comes back in the 32-bit form. -/
example : ((UsTlp.packRq { tlp := { fmt := 1, type := 0, length := 1, address := 0x1000 } }).bind fun f => UsTlp.unpackRq f true).toOption.map
    (fun v => (v.tlp.fmt, v.tlp.address)) = some (0, 0x1000) := by decide +kernel

/-- Copying a `Tlp_us` does not copy `request_completed`: a packet that has it, sent as a copy, does not have it any more. -/
theorem C05_us_copy_violated : UsCarries .rc .CPL_DATA usData ∧ usData.requestCompleted = true ∧
    ((usPack .rc usData.copy).bind fun f => usUnpack .rc f true).toOption.map (·.requestCompleted) = some false :=
  ⟨⟨usData_cpl, by decide, by decide⟩, rfl, by decide +kernel⟩

/-- A copy of a `Tlp_us` without `th` and `request_completed` is the same. Missing: those with them (C05_us_copy_violated). -/
theorem C05_us_copy_partial (u : UsTlp) (h1 : u.tlp.th = false) (h2 : u.requestCompleted = false) : u.copy = u := by
  obtain ⟨t, _, _, _, _, _, _, _, _⟩ := u
  obtain ⟨⟩ := t
  cases h1
  cases h2
  rfl
example : usWrite.tlp.th = false ∧ usWrite.requestCompleted = false := ⟨rfl, rfl⟩

end Pcie
