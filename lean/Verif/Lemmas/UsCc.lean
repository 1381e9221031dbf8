import Verif.Spec.UsCc
import Verif.Props.UsCq
import Verif.Props.Memory
import Verif.Props.Io
namespace Pcie
open Spec
namespace UsCc

/-! ### Requests of the library -/

/-- What the requests of the library have in common. -/
structure LibReq (ty : TlpType) (t : Tlp) : Prop where
  type : t.fmtType = some ty
  length : t.length ≤ 1024
  tag : t.tag < 256
  tc : t.tc < 8
  attr : t.attr < 8
  at_ : t.at_ = 0
  requester : t.requester_id.Valid
  completer : t.completer_id = ⟨0, 0, 0⟩
  data : t.data.length % 4 = 0
  address : t.address % 4 = 0
  form : match kind ty with
    | some .req3 => t.address < 2 ^ 32
    | some .req4 => 2 ^ 32 ≤ t.address
    | _ => False

/-- The request as the user unpacks it. -/
def seenAs (d : UsDev) (w : Window) (t : Tlp) : UsTlp :=
  cqSeen { tlp := { t.copy with completer_id := ⟨d.bus, 0, 0⟩ }, barId := w.idx, barAperture := w.k }

theorem aperture_lt {fns : List RFn} {wss : List (List Window)} {io : Bool} {a : Nat} {w : Window} (h : Windows fns wss) (hc : claimant io a wss = some (0, w)) : w.k < 32 := by
  obtain ⟨ws, rest, rfl, hmem, -, -⟩ := UsDev.claimant_zero hc
  cases h with
  | cons h _ => exact h.2 w hmem

theorem deliver_ok {d : UsDev} {io : Bool} {wss : List (List Window)} {w : Window} {lo len : Nat} (hb : Behind d io wss w lo len) (chk : Bool) {ty : TlpType} {t : Tlp}
    (ht : LibReq ty t) (hty : AddressedBy io ty) (h1 : lo / 4 * 4 ≤ t.address) (h2 : t.address < lo + len) :
    d.deliver chk t = .ok (some (seenAs d w t)) ∧ ∀ user, d.answerAll chk user t = (d.ccAll chk (UsDev.packAll (user (seenAs d w t)))).1 := by
  obtain ⟨f, fns, hf, hid⟩ := hb.first
  have hcl := hb.claimed _ h1 h2
  have hk := aperture_lt hb.windows hcl
  have ha : t.address < 2 ^ 64 := by have := hb.low; omega
  have hn : t.address < 2 ^ 32 ∨ ∀ ws ∈ wss, ∀ w ∈ ws, w.wide = true := by
    rcases hb.wide with h | h
    · exact .inl (by omega)
    · exact .inr h
  have hr := C58_claimed_partial d f fns t ty io wss w hf hid ht.type hty ⟨by rw [ht.completer], by rw [ht.completer]⟩ hb.windows ha hn hcl
  rw [hid] at hr
  have hkind : kind ty ≠ some .cfg := by
    intro hk2; have := ht.form; rw [hk2] at this; exact this
  have hreq : UsReq ty { t.copy with completer_id := ⟨d.bus, 0, 0⟩ } := by
    refine ⟨⟨fmtType_value ht.type, ?_, ht.tag, ht.tc, ht.attr, ?_, ht.requester, ⟨?_, by show (0 : Nat) ≤ 31; omega, by show (0 : Nat) ≤ 7; omega⟩, ht.data⟩, ht.address, ?_⟩
    · have := ht.length; show t.length < 2048; omega
    · show t.at_ ≤ 2; rw [ht.at_]; omega
    · have := hb.bus; show d.bus ≤ 255; omega
    · have := ht.form
      split at this
      · next e => rw [e]; exact this
      · next e => rw [e]; exact ⟨this, ha⟩
      · exact this.elim
  obtain ⟨fr, p1, p2⟩ := C39_roundtrip .cq ty { tlp := { t.copy with completer_id := ⟨d.bus, 0, 0⟩ }, barId := w.idx, barAperture := w.k } ⟨hreq, hkind, hb.idx, by show w.k < 64; omega⟩ chk
  have p1' : UsTlp.packCq { tlp := { t.copy with completer_id := ⟨d.bus, 0, 0⟩ }, barId := w.idx, barAperture := w.k } = .ok fr := p1
  have p2' : UsTlp.unpackCq fr chk = .ok (seenAs d w t) := p2
  have hd : d.deliver chk t = .ok (some (seenAs d w t)) := by
    unfold UsDev.deliver
    rw [hr]
    simp only
    rw [p1']
    simp only
    rw [p2']
  refine ⟨hd, fun user => ?_⟩
  unfold UsDev.answerAll
  rw [hr]
  simp only
  rw [hd]

/-! ### Completions of the user -/

/-- What the host gets of a completion. -/
def hostSees (d : UsDev) (w : UsTlp) : Tlp :=
  let v := ccSeen w
  ({ v.tlp with completer_id := if w.completerIdEnable then v.tlp.completer_id else { v.tlp.completer_id with bus := d.bus } } : Tlp).copy

/-- A completion that can be sent. -/
def Sendable (w : UsTlp) : Prop := ∃ ty, UsCarries .cc ty w ∧ w.tlp.byte_count + w.tlp.lower_address % 4 + 3 ≥ 4 * w.tlp.length

theorem cpl_check {ty : TlpType} {t : Tlp} (ht : t.fmtType = some ty) (hk : kind ty = some .cpl) (h1 : t.data.length = 4 * t.length)
    (h2 : (ty = .CPL_DATA ∨ ty = .CPL_LOCKED_DATA) ↔ 0 < t.length) (h3 : t.byte_count + t.lower_address % 4 + 3 ≥ 4 * t.length) : assertCheck t = .ok () := by
  refine assertCheck_ok ?_
  unfold Tlp.check
  rw [ht]
  have e3 : t.lower_address &&& 3 = t.lower_address % 4 := Nat.and_two_pow_sub_one_eq_mod _ 2
  cases ty <;> simp [kind] at hk
  · have h0 : t.length = 0 := by have := h2.not; simp at this; omega
    simp [h0, List.length_eq_zero_iff.mp (by rw [h1, h0])]
  · simp only [e3]
    simp
    omega
  · have h0 : t.length = 0 := by have := h2.not; simp at this; omega
    simp [h0, List.length_eq_zero_iff.mp (by rw [h1, h0])]
  · simp only [e3]
    simp
    omega

theorem ccOne_ok (d : UsDev) (chk : Bool) {w : UsTlp} (hw : Sendable w) :
    ∃ f, w.packCc = .ok f ∧ d.ccOne chk f = .ok (if w.discontinue then none else some (hostSees d w)) := by
  obtain ⟨ty, hc, hb⟩ := hw
  obtain ⟨f, p1, p2⟩ := C39_roundtrip .cc ty w hc chk
  refine ⟨f, p1, ?_⟩
  have p2' : UsTlp.unpackCc f chk = .ok (ccSeen w) := p2
  have hchk : assertCheck (hostSees d w) = .ok () :=
    cpl_check (ty := ty) (show Tlp.fmtType _ = _ from fmtType_of_value (t := (hostSees d w)) hc.1.type) hc.1.cpl hc.1.payload hc.1.form hb
  unfold UsDev.ccOne
  rw [p2']
  simp only
  by_cases he : w.completerIdEnable = true
  · have hh : hostSees d w = (ccSeen w).tlp.copy := by unfold hostSees; rw [he]; rfl
    have e1 : (ccSeen w).completerIdEnable = true := he
    rw [if_pos e1]
    by_cases hdis : w.discontinue = true
    · rw [if_pos hdis, if_pos (show (ccSeen w).discontinue = true from hdis)]
    · rw [if_neg hdis, if_neg (show ¬ (ccSeen w).discontinue = true from hdis), ← hh, hchk]
  · have he' : w.completerIdEnable = false := by simpa using he
    have hh : hostSees d w = ({ (ccSeen w).tlp with completer_id := { (ccSeen w).tlp.completer_id with bus := d.bus } } : Tlp).copy := by unfold hostSees; rw [he']; rfl
    rw [if_neg (show ¬ (ccSeen w).completerIdEnable = true from he)]
    by_cases hdis : w.discontinue = true
    · rw [if_pos hdis]
      exact if_pos hdis
    · rw [if_neg hdis]
      refine (if_neg hdis).trans ?_
      simp only
      rw [← hh, hchk]

theorem ccAll_ok (d : UsDev) (chk : Bool) : ∀ ws : List UsTlp, (∀ w ∈ ws, Sendable w) →
    d.ccAll chk (UsDev.packAll ws) = ((ws.filter fun w => !w.discontinue).map (hostSees d), none) := by
  intro ws
  induction ws with
  | nil => intro _; rfl
  | cons w ws ih =>
    intro h
    obtain ⟨f, p1, p2⟩ := ccOne_ok d chk (h w (by simp))
    have := ih fun x hx => h x (by simp [hx])
    rw [UsDev.packAll, p1]
    simp only
    rw [UsDev.ccAll, p2]
    by_cases hd : w.discontinue = true
    · simp only [hd, if_true, this]
      rw [List.filter_cons_of_neg (by simp [hd])]
    · simp only [hd, if_false, this]
      rw [List.filter_cons_of_pos (by simp [hd])]
      rfl

theorem ccAll_kept (d : UsDev) (chk : Bool) (ws : List UsTlp) (h : ∀ w ∈ ws, Sendable w) (hk : ∀ w ∈ ws, w.discontinue = false) :
    (d.ccAll chk (UsDev.packAll ws)).1 = ws.map (hostSees d) := by
  rw [ccAll_ok d chk ws h]
  simp only
  rw [List.filter_eq_self.mpr]
  intro w hw; simp [hk w hw]

/-- Legal sequences stay legal. -/
theorem legal_map {m : Mem} {rcb mps : Nat} (g : UsTlp → Tlp)
    (hg : ∀ w, (g w).status = w.tlp.status ∧ (g w).fmtType = w.tlp.fmtType ∧ (g w).lower_address = w.tlp.lower_address ∧ (g w).byte_count = w.tlp.byte_count ∧
      (g w).length = w.tlp.length ∧ (g w).data = w.tlp.data) :
    ∀ (ws : List UsTlp) (a n : Nat), LegalCpls m rcb mps a n (ws.map (·.tlp)) → LegalCpls m rcb mps a n (ws.map g) := by
  intro ws
  induction ws with
  | nil => intro a n h; exact h
  | cons w ws ih =>
    intro a n h
    obtain ⟨g1, g2, g3, g4, g5, g6⟩ := hg w
    rw [List.map_cons] at h ⊢
    generalize hr : ws.map (·.tlp) = r at h
    cases h with
    | last _ _ _ h0 h1 h2 h3 h4 h5 h6 h7 =>
      have : ws = [] := List.map_eq_nil_iff.mp hr
      subst this
      exact .last _ _ _ h0 (g1.trans h1) (g2.trans h2) (g3.trans h3) (g4.trans h4) (g5.trans h5) (by rw [g5]; exact h6) (by rw [g5, g6]; exact h7)
    | more _ _ _ _ h1 h2 h3 h4 h5 h6 h7 h8 h9 h10 =>
      refine .more _ _ _ _ (g1.trans h1) (g2.trans h2) (g3.trans h3) (g4.trans h4) (by rw [g5]; exact h5) (by rw [g5]; exact h6) (by rw [g5]; exact h7) (by rw [g5]; exact h8)
        (by rw [g5, g6]; exact h9) ?_
      rw [g5]
      exact ih _ _ (by rw [hr]; exact h10)

theorem hostSees_fields (d : UsDev) (w : UsTlp) :
    (hostSees d w).status = w.tlp.status ∧ (hostSees d w).fmtType = w.tlp.fmtType ∧ (hostSees d w).lower_address = w.tlp.lower_address ∧
      (hostSees d w).byte_count = w.tlp.byte_count ∧ (hostSees d w).length = w.tlp.length ∧ (hostSees d w).data = w.tlp.data := ⟨rfl, rfl, rfl, rfl, rfl, rfl⟩

/-- The fields that completions of a legal sequence have. -/
theorem legal_fits {m : Mem} {rcb mps a n : Nat} {l : List Tlp} (h : LegalCpls m rcb mps a n l) : mps ≤ 4096 → n ≤ 4096 → ∀ c ∈ l, c.status = 0 ∧ c.fmtType = some .CPL_DATA ∧
    c.lower_address < 128 ∧ c.byte_count ≤ 4096 ∧ 0 < c.length ∧ c.length ≤ 1024 ∧ c.data.length = 4 * c.length ∧ c.byte_count + c.lower_address % 4 + 3 ≥ 4 * c.length := by
  induction h with
  | last addr rem c h0 h1 h2 h3 h4 h5 h6 h7 =>
    intro hm hn x hx
    rw [List.mem_singleton.mp hx]
    refine ⟨h1, h2, by omega, by omega, by omega, by omega, h7.1, by omega⟩
  | more addr rem c rest h1 h2 h3 h4 h5 h6 h7 h8 h9 h10 ih =>
    intro hm hn x hx
    rcases List.mem_cons.mp hx with rfl | hx
    · exact ⟨h1, h2, by omega, by omega, h5, by omega, h9.1, by omega⟩
    · exact ih hm (by omega) x hx

theorem sendable_of {v w : UsTlp} (hp : Proper v w) (hv : v.tlp.tag < 256 ∧ v.tlp.tc < 8 ∧ v.tlp.attr < 8 ∧ v.tlp.requester_id.Valid ∧ v.tlp.completer_id.Valid)
    {ty : TlpType} (hty : w.tlp.fmtType = some ty) (hk : kind ty = some .cpl) (h0 : w.tlp.status = 0) (h1 : w.tlp.lower_address < 128) (h2 : w.tlp.byte_count < 8192)
    (h3 : w.tlp.length < 2048) (h4 : w.tlp.data.length = 4 * w.tlp.length) (h5 : ty = .CPL_DATA ∨ ty = .CPL_LOCKED_DATA ↔ 0 < w.tlp.length)
    (h6 : w.tlp.byte_count + w.tlp.lower_address % 4 + 3 ≥ 4 * w.tlp.length) : Sendable w := by
  obtain ⟨-, o1, o2, o3, o4⟩ := hp.own
  obtain ⟨v1, v2, v3, v4, v5⟩ := hv
  refine ⟨ty, ⟨⟨⟨fmtType_value hty, h3, by rw [o2]; exact v1, by rw [o4]; exact v2, by rw [o3]; exact v3, by rw [hp.at_]; omega, by rw [o1]; exact v4,
    by rw [hp.completer]; exact v5, by omega⟩, hk, .inl h0, h2, h4, h5⟩, h1⟩, h6⟩

theorem seenAs_valid {ty : TlpType} {t : Tlp} (ht : LibReq ty t) (d : UsDev) (w : Window) :
    (seenAs d w t).tlp.tag < 256 ∧ (seenAs d w t).tlp.tc < 8 ∧ (seenAs d w t).tlp.attr < 8 ∧ (seenAs d w t).tlp.requester_id.Valid ∧ (seenAs d w t).tlp.completer_id.Valid :=
  ⟨ht.tag, ht.tc, ht.attr, ht.requester, ⟨by show (0 : Nat) ≤ 255; omega, by show (0 : Nat) ≤ 31; omega, by show (0 : Nat) ≤ 7; omega⟩⟩

theorem hostSees_own {d : UsDev} {w : Window} {t : Tlp} {u : UsTlp} (hp : Proper (seenAs d w t) u) : Own t (hostSees d u) ∧ (hostSees d u).completer_id = ⟨d.bus, 0, 0⟩ := by
  obtain ⟨o0, o1, o2, o3, o4⟩ := hp.own
  refine ⟨⟨o0, o1, o2, o3, o4⟩, ?_⟩
  unfold hostSees
  rw [hp.busByModel]
  show ({ u.tlp.completer_id with bus := d.bus } : PcieId) = _
  rw [hp.completer]
  rfl

/-! ### The requests of reads and writes -/

theorem setAddrBe_rest (T : Tlp) (addr L : Nat) : (T.setAddrBe addr L).1.at_ = T.at_ ∧ (T.setAddrBe addr L).1.completer_id = T.completer_id ∧ (T.setAddrBe addr L).1.tag = T.tag := by
  unfold Tlp.setAddrBe
  simp only
  split
  · exact ⟨rfl, rfl, rfl⟩
  · split <;> exact ⟨rfl, rfl, rfl⟩

theorem setAddrBeData_rest (T : Tlp) (addr : Nat) (l : List UInt8) :
    (T.setAddrBeData addr l).at_ = T.at_ ∧ (T.setAddrBeData addr l).completer_id = T.completer_id ∧ (T.setAddrBeData addr l).tag = T.tag := by
  have h := setAddrBe_rest T addr l.length
  unfold Tlp.setAddrBeData
  generalize T.setAddrBe addr l.length = x at h ⊢
  obtain ⟨t', a, b⟩ := x
  simp only
  split <;> exact h

theorem readTlp_rest (c : ReqCfg) (attr tc : Nat) (addr L : Nat) : (Region.readTlp c attr tc false addr L).at_ = 0 ∧ (Region.readTlp c attr tc false addr L).completer_id = ⟨0, 0, 0⟩ := by
  unfold Region.readTlp
  simp only [Bool.false_eq_true, if_false]
  rw [(setAddrBe_rest _ _ _).1, (setAddrBe_rest _ _ _).2.1]
  split <;> exact ⟨rfl, rfl⟩

theorem writeTlp_rest (c : ReqCfg) (attr tc : Nat) (addr : Nat) (chunk : List UInt8) :
    (Region.writeTlp c attr tc false addr chunk).at_ = 0 ∧ (Region.writeTlp c attr tc false addr chunk).completer_id = ⟨0, 0, 0⟩ ∧ (Region.writeTlp c attr tc false addr chunk).tag = 0 := by
  unfold Region.writeTlp
  simp only [Bool.false_eq_true, if_false]
  rw [(setAddrBeData_rest _ _ _).1, (setAddrBeData_rest _ _ _).2.1, (setAddrBeData_rest _ _ _).2.2]
  split <;> exact ⟨rfl, rfl, rfl⟩

theorem ioReadTlp_rest (c : ReqCfg) (addr L : Nat) : (IoRegion.readTlp c false addr L).at_ = 0 ∧ (IoRegion.readTlp c false addr L).completer_id = ⟨0, 0, 0⟩ := by
  unfold IoRegion.readTlp
  simp only [Bool.false_eq_true, if_false]
  rw [(setAddrBe_rest _ _ _).1, (setAddrBe_rest _ _ _).2.1]
  exact ⟨rfl, rfl⟩

theorem ioWriteTlp_rest (c : ReqCfg) (addr : Nat) (chunk : List UInt8) :
    (IoRegion.writeTlp c false addr chunk).at_ = 0 ∧ (IoRegion.writeTlp c false addr chunk).completer_id = ⟨0, 0, 0⟩ := by
  unfold IoRegion.writeTlp
  simp only [Bool.false_eq_true, if_false]
  rw [(setAddrBeData_rest _ _ _).1, (setAddrBeData_rest _ _ _).2.1]
  exact ⟨rfl, rfl⟩

theorem readTlp_lib (c : ReqCfg) (attr tc : Nat) (a L tag : Nat) (hid : c.id.Valid) (h0 : 0 < L) (h1 : a % 4096 + L ≤ 4096) (ha : attr < 8) (htc : tc < 8) (htag : tag < 256) :
    ∃ ty, LibReq ty { Region.readTlp c attr tc false a L with tag := tag } ∧ (ty = .MEM_READ ∨ ty = .MEM_READ_64) := by
  obtain ⟨f1, f2, f3, f5, -, f6, f7, f8, -⟩ := Region.readTlp_fields c attr tc false a L h0
  obtain ⟨r1, r2⟩ := readTlp_rest c attr tc a L
  refine ⟨_, ⟨f5, ?_, htag, ?_, ?_, r1, ?_, r2, ?_, ?_, ?_⟩, ?_⟩
  · show (Region.readTlp c attr tc false a L).length ≤ 1024; rw [f2]; omega
  · show (Region.readTlp c attr tc false a L).tc < 8; rw [f8]; exact htc
  · show (Region.readTlp c attr tc false a L).attr < 8; rw [f7]; exact ha
  · show (Region.readTlp c attr tc false a L).requester_id.Valid; rw [f6]; exact hid
  · show (Region.readTlp c attr tc false a L).data.length % 4 = 0; rw [f3]; rfl
  · show (Region.readTlp c attr tc false a L).address % 4 = 0; rw [f1]; omega
  · by_cases hx : a > 0xffffffff
    · rw [if_pos hx]; show 2 ^ 32 ≤ (Region.readTlp c attr tc false a L).address; rw [f1]; omega
    · rw [if_neg hx]; show (Region.readTlp c attr tc false a L).address < 2 ^ 32; rw [f1]; omega
  · by_cases hx : a > 0xffffffff
    · rw [if_pos hx]; exact .inr rfl
    · rw [if_neg hx]; exact .inl rfl

/-- The requests of a write, one after the other, with the bytes each of them brings. -/
inductive Pieces (P : Nat → Nat → Tlp → Prop) : Nat → List UInt8 → List Tlp → Prop
  | nil (a : Nat) : Pieces P a [] []
  | cons (a : Nat) (chunk rest : List UInt8) (t : Tlp) (ts : List Tlp) : 0 < chunk.length → P a chunk.length t → t.address = a / 4 * 4 →
      (∀ b, byteEnabled t b ↔ a ≤ b ∧ b < a + chunk.length) → (∀ i, (h : i < chunk.length) → t.data[a % 4 + i]? = some chunk[i]) → Pieces P (a + chunk.length) rest ts →
      Pieces P a (chunk ++ rest) (t :: ts)

theorem mem_pieces (c : ReqCfg) (attr tc : Nat) (hid : c.id.Valid) (ha : attr < 8) (htc : tc < 8) (data : List UInt8) : ∀ (k n addr : Nat), data.length - n = k → n ≤ data.length →
    Pieces (fun a l t => (∃ ty, LibReq ty t ∧ (ty = .MEM_WRITE ∨ ty = .MEM_WRITE_64)) ∧ t.data.length = 4 * t.length) addr (data.drop n) (Region.writeLoop c attr tc false data n addr) := by
  intro k
  induction k using Nat.strongRecOn with
  | ind k ih =>
    intro n addr hk hn
    rw [Region.writeLoop]
    by_cases h : n < data.length
    · simp only [h, dite_true]
      obtain ⟨l1, l2, l3, l4⟩ := Region.writeLen_facts c addr (data.length - n) (by omega)
      generalize Region.writeLen c addr (data.length - n) = L at l1 l2 l3 l4 ⊢
      have hs : (slice data n (n + L)).length = L := by rw [slice_length _ _ _ (by omega)]; omega
      have hok := Region.writeTlp_fields c attr tc false addr (slice data n (n + L)) (by omega)
      have hen := Region.writeTlp_enabled c attr tc addr (slice data n (n + L))
      have hrest := writeTlp_rest c attr tc addr (slice data n (n + L))
      generalize Region.writeTlp c attr tc false addr (slice data n (n + L)) = t at hok hen hrest ⊢
      obtain ⟨f1, f2, f3, f4, f5, f6, f7, f8, -⟩ := hok
      obtain ⟨r1, r2, r3⟩ := hrest
      have hnext := ih (data.length - (n + L)) (by omega) (n + L) (addr + L) rfl (by omega)
      rw [← slice_append_drop data n L]
      rw [hs] at f2
      refine .cons _ _ _ _ _ (by omega) ⟨⟨_, ⟨f5, ?_, ?_, ?_, ?_, r1, ?_, r2, ?_, ?_, ?_⟩, ?_⟩, f3⟩ f1 hen f4 (by rw [hs]; exact hnext)
      · rw [f2]; omega
      · rw [r3]; omega
      · rw [f8]; exact htc
      · rw [f7]; exact ha
      · rw [f6]; exact hid
      · rw [f3]; omega
      · rw [f1]; omega
      · by_cases hx : addr > 0xffffffff
        · rw [if_pos hx]; show 2 ^ 32 ≤ t.address; rw [f1]; omega
        · rw [if_neg hx]; show t.address < 2 ^ 32; rw [f1]; omega
      · by_cases hx : addr > 0xffffffff
        · rw [if_pos hx]; exact .inr rfl
        · rw [if_neg hx]; exact .inl rfl
    · simp only [h, dite_false]
      rw [List.drop_eq_nil_of_le (by omega)]
      exact .nil _

theorem io_pieces (c : ReqCfg) (data : List UInt8) : ∀ (k n addr : Nat), data.length - n = k → n ≤ data.length →
    Pieces (fun a l t => IoOk .IO_WRITE t ∧ t.requester_id = c.id ∧ t.data.length = 4 ∧ t.at_ = 0 ∧ t.completer_id = ⟨0, 0, 0⟩) addr (data.drop n) (IoRegion.writeLoop c false data n addr) := by
  intro k
  induction k using Nat.strongRecOn with
  | ind k ih =>
    intro n addr hk hn
    rw [IoRegion.writeLoop]
    by_cases h : n < data.length
    · simp only [h, dite_true]
      obtain ⟨l1, l2, l3, -⟩ := IoRegion.len_facts addr (data.length - n) (by omega)
      generalize IoRegion.len addr (data.length - n) = L at l1 l2 l3 ⊢
      have hs : (slice data n (n + L)).length = L := by rw [slice_length _ _ _ (by omega)]; omega
      have hok := IoRegion.writeTlp_fields c false addr (slice data n (n + L)) (by omega) (by omega)
      have hen := IoRegion.writeTlp_enabled c addr (slice data n (n + L))
      have hrest := ioWriteTlp_rest c addr (slice data n (n + L))
      generalize IoRegion.writeTlp c false addr (slice data n (n + L)) = t at hok hen hrest ⊢
      obtain ⟨hio, f1, f2, f3, f4⟩ := hok
      have hnext := ih (data.length - (n + L)) (by omega) (n + L) (addr + L) rfl (by omega)
      rw [← slice_append_drop data n L]
      exact .cons _ _ _ _ _ (by omega) ⟨hio, f2, f3, hrest.1, hrest.2⟩ f1 hen f4 (by rw [hs]; exact hnext)
    · simp only [h, dite_false]
      rw [List.drop_eq_nil_of_le (by omega)]
      exact .nil _

theorem stored_unique {m m' : Mem} {t : Tlp} {off : Nat} (h : EnabledStored m m' t off) : m' = storeTlp m t off := by
  funext a
  unfold storeTlp
  by_cases hc : off ≤ a ∧ byteEnabled t (a - off + t.address)
  · rw [if_pos hc]
    have := h.1 (a - off) (by rw [Nat.add_comm]; exact hc.2)
    rw [show off + (a - off) = a by omega] at this
    rw [List.getD_eq_getElem?_getD, this]
    rfl
  · rw [if_neg hc]
    refine h.2 a ?_
    rintro ⟨i, rfl, hi⟩
    exact hc ⟨by omega, by rw [show off + i - off + t.address = t.address + i by omega]; exact hi⟩

/-- A memory that stores the enabled bytes of one request after the other. -/
theorem pieces_stored {P : Nat → Nat → Tlp → Prop} {a : Nat} {data : List UInt8} {ts : List Tlp} (h : Pieces P a data ts) : ∀ (ms : Nat → Mem),
    (∀ i t, ts[i]? = some t → EnabledStored (ms i) (ms (i + 1)) t t.address) → ms ts.length = (ms 0).write a data := by
  induction h with
  | nil a => intro ms _; exact (Mem.write_nil ..).symm
  | cons a chunk rest t ts h0 _ h1 h2 h3 _ ih =>
    intro ms hs
    have e1 := stored_unique (hs 0 t rfl)
    rw [h1, storeTlp_range (ms 0) t a (a / 4 * 4) chunk h1 h2 h3, show a / 4 * 4 + a % 4 = a by omega] at e1
    have e2 := ih (fun i => ms (i + 1)) (fun i t hi => hs (i + 1) t hi)
    show ms (ts.length + 1) = _
    rw [e2, e1, Mem.write_append]

theorem pieces_within {P : Nat → Nat → Tlp → Prop} {a : Nat} {data : List UInt8} {ts : List Tlp} (h : Pieces P a data ts) : ∀ t ∈ ts,
    (∃ b l, P b l t) ∧ a / 4 * 4 ≤ t.address ∧ t.address < a + data.length := by
  induction h with
  | nil => intro t ht; cases ht
  | cons a chunk rest t ts h0 hp h1 h2 h3 _ ih =>
    intro x hx
    rw [List.length_append]
    rcases List.mem_cons.mp hx with rfl | hx
    · exact ⟨⟨_, _, hp⟩, by omega, by omega⟩
    · have := ih x hx
      exact ⟨this.1, by omega, by omega⟩

end UsCc
end Pcie
