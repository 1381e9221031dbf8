import Verif.Spec.IntelHost
import Verif.Props.IntelDev
import Verif.Props.UsCc
namespace Pcie
open Spec UsCc
namespace IntelHost
variable {F : Type}

/-- Fields that requests of the library do not set. -/
structure Plain (t : Tlp) : Prop where
  fbe : t.first_be < 16
  lbe : t.last_be < 16
  seq : t.seq = 0
  status : t.status = 0
  bcm : t.bcm = false
  bc : t.byte_count = 0
  la : t.lower_address = 0
  ph : t.ph = 0

theorem setAddrBe_plain {T : Tlp} (h : Plain T) (addr L : Nat) : Plain (T.setAddrBe addr L).1 := by
  have b1 : (0xf <<< (addr % 4)) &&& 0xf < 16 := Nat.lt_of_le_of_lt Nat.and_le_right (by omega)
  have b2 : ∀ k, 0xf >>> k < 16 := fun k => Nat.lt_of_le_of_lt (Nat.shiftRight_le _ _) (by omega)
  unfold Tlp.setAddrBe
  simp only
  split
  · exact ⟨by show 0 < 16; omega, by show 0 < 16; omega, h.seq, h.status, h.bcm, h.bc, h.la, h.ph⟩
  · split
    · exact ⟨Nat.lt_of_le_of_lt Nat.and_le_left b1, by show 0 < 16; omega, h.seq, h.status, h.bcm, h.bc, h.la, h.ph⟩
    · exact ⟨b1, b2 _, h.seq, h.status, h.bcm, h.bc, h.la, h.ph⟩

theorem setAddrBeData_plain {T : Tlp} (h : Plain T) (addr : Nat) (l : List UInt8) : Plain (T.setAddrBeData addr l) := by
  have h := setAddrBe_plain h addr l.length
  unfold Tlp.setAddrBeData
  generalize T.setAddrBe addr l.length = x at h ⊢
  obtain ⟨t', a, b⟩ := x
  simp only
  split <;> exact ⟨h.fbe, h.lbe, h.seq, h.status, h.bcm, h.bc, h.la, h.ph⟩

theorem readTlp_plain (c : ReqCfg) (attr tc addr L : Nat) : Plain (Region.readTlp c attr tc false addr L) := by
  unfold Region.readTlp
  simp only [Bool.false_eq_true, if_false]
  refine setAddrBe_plain ?_ _ _
  split <;> exact ⟨by show 0 < 16; omega, by show 0 < 16; omega, rfl, rfl, rfl, rfl, rfl, rfl⟩

theorem writeTlp_plain (c : ReqCfg) (attr tc addr : Nat) (l : List UInt8) : Plain (Region.writeTlp c attr tc false addr l) := by
  unfold Region.writeTlp
  simp only [Bool.false_eq_true, if_false]
  refine setAddrBeData_plain ?_ _ _
  split <;> exact ⟨by show 0 < 16; omega, by show 0 < 16; omega, rfl, rfl, rfl, rfl, rfl, rfl⟩

theorem ioReadTlp_plain (c : ReqCfg) (addr L : Nat) : Plain (IoRegion.readTlp c false addr L) := by
  unfold IoRegion.readTlp
  simp only [Bool.false_eq_true, if_false]
  exact setAddrBe_plain ⟨by show 0 < 16; omega, by show 0 < 16; omega, rfl, rfl, rfl, rfl, rfl, rfl⟩ _ _

theorem ioWriteTlp_plain (c : ReqCfg) (addr : Nat) (l : List UInt8) : Plain (IoRegion.writeTlp c false addr l) := by
  unfold IoRegion.writeTlp
  simp only [Bool.false_eq_true, if_false]
  exact setAddrBeData_plain ⟨by show 0 < 16; omega, by show 0 < 16; omega, rfl, rfl, rfl, rfl, rfl, rfl⟩ _ _

theorem writeLoop_plain (c : ReqCfg) (attr tc : Nat) (data : List UInt8) : ∀ (k n addr : Nat), data.length - n = k → ∀ t ∈ Region.writeLoop c attr tc false data n addr, Plain t := by
  intro k
  induction k using Nat.strongRecOn with
  | ind k ih =>
    intro n addr hk t ht
    rw [Region.writeLoop] at ht
    by_cases h : n < data.length
    · simp only [h, dite_true] at ht
      have := (Region.writeLen_facts c addr (data.length - n) (by omega)).1
      rcases List.mem_cons.mp ht with rfl | ht
      · exact writeTlp_plain ..
      · exact ih _ (by omega) _ _ rfl t ht
    · simp only [h, dite_false] at ht
      cases ht

theorem ioWriteLoop_plain (c : ReqCfg) (data : List UInt8) : ∀ (k n addr : Nat), data.length - n = k → ∀ t ∈ IoRegion.writeLoop c false data n addr, Plain t := by
  intro k
  induction k using Nat.strongRecOn with
  | ind k ih =>
    intro n addr hk t ht
    rw [IoRegion.writeLoop] at ht
    by_cases h : n < data.length
    · simp only [h, dite_true] at ht
      have := (IoRegion.len_facts addr (data.length - n) (by omega)).1
      rcases List.mem_cons.mp ht with rfl | ht
      · exact ioWriteTlp_plain ..
      · exact ih _ (by omega) _ _ rfl t ht
    · simp only [h, dite_false] at ht
      cases ht

/-- Requests of the library can be packed. -/
theorem lib_encodable {ty : TlpType} {t : Tlp} (h : LibReq ty t) (hp : Plain t) (h1 : 1 ≤ t.length) (hd : (t.fmt = 0 ∨ t.fmt = 1) → t.data = []) (ha : t.address < 2 ^ 64) : Encodable ty t := by
  have hf := h.form
  refine ⟨fmtType_value h.type, h.tc, h.attr, by rw [h.at_]; omega, by have := h.tag; omega, h.requester, by rw [h.completer]; exact ⟨by decide, by decide, by decide⟩, hp.seq, ?_, hd, ?_⟩
  · have hn : ¬ (ty = .CPL ∨ ty = .CPL_LOCKED) := by
      rintro (rfl | rfl) <;> exact hf
    rw [if_neg hn]
    exact ⟨h1, h.length⟩
  · split at hf
    · next e =>
      rw [e]
      exact ⟨hp.fbe, hp.lbe, hp.status, hp.bcm, hp.bc, hp.la, h.address, by rw [hp.ph]; decide, h.completer, hf⟩
    · next e =>
      rw [e]
      exact ⟨hp.fbe, hp.lbe, hp.status, hp.bcm, hp.bc, hp.la, h.address, by rw [hp.ph]; decide, h.completer, ha⟩
    · exact hf.elim

/-- Completions of the user can be packed. -/
theorem cpl_encodable {ty : TlpType} {t c : Tlp} (hc : GoodCpl t c) (ht : t.tag < 1024 ∧ t.tc < 8 ∧ t.attr < 8 ∧ t.requester_id.Valid) (hty : c.fmtType = some ty) (hk : kind ty = some .cpl)
    (h0 : c.status = 0) (h1 : c.lower_address < 128) (h2 : 1 ≤ c.byte_count ∧ c.byte_count ≤ 4096) (h3 : c.length ≤ 1024) (h4 : c.data.length = 4 * c.length)
    (h5 : ty = .CPL_DATA ∨ ty = .CPL_LOCKED_DATA ↔ 0 < c.length) (h6 : c.byte_count + c.lower_address % 4 + 3 ≥ 4 * c.length) :
    Encodable ty c ∧ c.data.length % 4 = 0 ∧ c.check = .ok true := by
  obtain ⟨-, o1, o2, o3, o4⟩ := hc.own
  obtain ⟨r1, r2, r3, r4, r5⟩ := hc.rest
  obtain ⟨v1, v2, v3, v4⟩ := ht
  have hv := fmtType_value hty
  refine ⟨⟨hv, by rw [o4]; exact v2, by rw [o3]; exact v3, by rw [hc.noAt]; omega, by rw [o2]; omega, by rw [o1]; exact v4, hc.completer, r1, ?_, ?_, ?_⟩, by omega, ?_⟩
  · cases ty <;> simp [kind] at hk
    · have : ¬ 0 < c.length := by rw [← h5]; simp
      simp; omega
    · have : 0 < c.length := by rw [← h5]; simp
      simp; omega
    · have : ¬ 0 < c.length := by rw [← h5]; simp
      simp; omega
    · have : 0 < c.length := by rw [← h5]; simp
      simp; omega
  · intro hf
    cases ty <;> simp [kind] at hk
    · have : ¬ 0 < c.length := by rw [← h5]; simp
      exact List.length_eq_zero_iff.mp (by omega)
    · have e := congrArg Prod.fst hv; simp [TlpType.value] at e; omega
    · have : ¬ 0 < c.length := by rw [← h5]; simp
      exact List.length_eq_zero_iff.mp (by omega)
    · have e := congrArg Prod.fst hv; simp [TlpType.value] at e; omega
  · rw [hk]
    exact ⟨.inl h0, h2.1, h2.2, h1, r2, r3, r4, r5⟩
  · have := cpl_check hty hk h4 h5 h6
    unfold assertCheck at this
    cases hx : c.check with
    | error e => rw [hx] at this; cases this
    | ok b => cases b with
      | true => rfl
      | false => rw [hx] at this; cases this

theorem legal_pos {m : Mem} {rcb mps a n : Nat} {l : List Tlp} (h : LegalCpls m rcb mps a n l) : ∀ c ∈ l, 1 ≤ c.byte_count := by
  induction h with
  | last addr rem c h0 h1 h2 h3 h4 h5 h6 h7 =>
    intro x hx
    rw [List.mem_singleton.mp hx]
    omega
  | more addr rem c rest h1 h2 h3 h4 h5 h6 h7 h8 h9 h10 ih =>
    intro x hx
    rcases List.mem_cons.mp hx with rfl | hx
    · omega
    · exact ih x hx

/-- What is used about frames. -/
structure Codec (carries : F → Tlp → Nat → Nat → Prop) (enc : Tlp → Py F) (mk : Tlp → Nat → Nat → Py F) (conv : F → Py Tlp) : Prop where
  rx : ∀ (ty : TlpType) (t : Tlp), Encodable ty t → t.data.length % 4 = 0 → ∀ bar fn, ∃ f, mk t bar fn = .ok f ∧ carries f t bar fn
  tx : ∀ (ts : List Tlp) (fs : List F), (∀ t ∈ ts, ∃ ty, Encodable ty t ∧ t.data.length % 4 = 0 ∧ t.check = .ok true) → ts.map enc = fs.map .ok → IntelDev.tx conv fs = ts

theorem s10Codec : Codec S10Carries S10Frame.fromTlp S10Frame.ofRx S10Frame.toTlp := ⟨fun _ _ h hd => S10Frame.ofRx_spec h hd, C64_tx_s10⟩
theorem ptileCodec : Codec PTileCarries PTileFrame.fromTlp PTileFrame.ofRx PTileFrame.toTlp := ⟨fun _ _ h hd => PTileFrame.ofRx_spec h hd, C64_tx_ptile⟩

variable {carries : F → Tlp → Nat → Nat → Prop} {enc : Tlp → Py F} {mk : Tlp → Nat → Nat → Py F} {conv : F → Py Tlp}

theorem recv_ok (hc : Codec carries enc mk conv) (p : RxLimits) (s : IntelDev F) {io : Bool} {wss : List (List Window)} {w : Window} {lo len : Nat} (hb : InWindow s.dev.fns io wss w lo len)
    {ty : TlpType} {t : Tlp} (ht : LibReq ty t) (hp : Plain t) (hl : 1 ≤ t.length) (hd : (t.fmt = 0 ∨ t.fmt = 1) → t.data = []) (hty : AddressedBy io ty)
    (h1 : lo / 4 * 4 ≤ t.address) (h2 : t.address < lo + len) :
    ∃ f fn, carries f t (barCode io w) fn ∧ Encodable ty t ∧ s.recv mk p t = .ok ({ s with queue := s.queue ++ [(t, f)] }, [.user f, .release]) := by
  have ha : t.address < 2 ^ 64 := by have := hb.low; omega
  obtain ⟨f, e1, e2⟩ := hc.rx ty t (lib_encodable ht hp hl hd ha) ht.data (barCode io w) t.requester_id.function
  obtain ⟨k, hk⟩ := hb.claimed _ h1 h2
  exact ⟨f, _, e2, lib_encodable ht hp hl hd ha, intel_claimed mk p s t ty io wss ht.type hty hb.windows ha (by rcases hb.wide with h | h; exact .inl (by omega); exact .inr h) k w hk f e1⟩

theorem answerAll_ok {p : RxLimits} {s s' : IntelDev F} {t : Tlp} {f : F} (h : s.recv mk p t = .ok (s', [.user f, .release])) (user : F → List F) :
    s.answerAll mk conv p user t = IntelDev.tx conv (user f) := by
  unfold IntelDev.answerAll
  rw [h]
  simp

/-- Requests that are all in the window are offered to the user one after the other. -/
theorem run_ok (hc : Codec carries enc mk conv) (p : RxLimits) {io : Bool} {wss : List (List Window)} {w : Window} {lo len : Nat} : ∀ (ts : List Tlp) (s : IntelDev F),
    InWindow s.dev.fns io wss w lo len →
    (∀ t ∈ ts, ∃ ty, LibReq ty t ∧ Plain t ∧ 1 ≤ t.length ∧ ((t.fmt = 0 ∨ t.fmt = 1) → t.data = []) ∧ AddressedBy io ty ∧ lo / 4 * 4 ≤ t.address ∧ t.address < lo + len) →
    ∃ s' o, s.run mk p (ts.map .recv) = some (.ok (s', o)) ∧ Offered carries (barCode io w) ts (rxOffered o) ∧ s'.dev = s.dev := by
  intro ts
  induction ts with
  | nil => intro s _ _; exact ⟨s, [], rfl, .nil, rfl⟩
  | cons t ts ih =>
    intro s hb h
    obtain ⟨ty, h1, h2, h3, h4, h5, h6, h7⟩ := h t (by simp)
    obtain ⟨f, fn, c1, henco, c2⟩ := recv_ok hc p s hb h1 h2 h3 h4 h5 h6 h7
    obtain ⟨s', o, r1, r2, r3⟩ := ih { s with queue := s.queue ++ [(t, f)] } hb fun t ht => h t (by simp [ht])
    refine ⟨s', .arrived t [.user f, .release] :: o, ?_, ?_, r3⟩
    · rw [List.map_cons, IntelDev.run, IntelDev.step, c2]
      simp only [r1]
      rfl
    · exact .cons ⟨fn, c1⟩ r2

theorem read_lemma (hc : Codec carries enc mk conv) (p : RxLimits) (s : IntelDev F) (wss : List (List Window)) (w : Window) (m : Mem) (user : F → List F) (c : ReqCfg) (addr length attr tc : Nat)
    (hb : InWindow s.dev.fns false wss w addr length) (hu : FrameReads carries enc m addr length w.idx user) (hid : c.id.Valid) (ha : attr < 8) (htc : tc < 8) (tg : Nat) (htag : tg < 256)
    (a L : Nat) (h1 : 0 < L) (h2 : addr ≤ a) (h3 : a + L ≤ addr + length) (h4 : a % 4096 + L ≤ 4096) :
    ∃ rcb mps, LegalCpls m rcb mps a L (s.answerAll mk conv p user { Region.readTlp c attr tc false a L with tag := tg }) ∧
      ∀ x ∈ s.answerAll mk conv p user { Region.readTlp c attr tc false a L with tag := tg }, Own { Region.readTlp c attr tc false a L with tag := tg } x := by
  obtain ⟨ty, hlib, hty⟩ := readTlp_lib c attr tc a L tg hid h1 h4 ha htc htag
  obtain ⟨f1, f2, f3, f5, f6, -⟩ := Region.readTlp_fields c attr tc false a L h1
  have hpl := readTlp_plain c attr tc a L
  have hen := Region.readTlp_enabled c attr tc a L
  generalize Region.readTlp c attr tc false a L = t at *
  have hread : IsRead { t with tag := tg } := by
    rcases hty with rfl | rfl
    · exact .inl hlib.type
    · exact .inr hlib.type
  obtain ⟨f, fn, c1, henco, c2⟩ := recv_ok hc p s hb hlib ⟨hpl.fbe, hpl.lbe, hpl.seq, hpl.status, hpl.bcm, hpl.bc, hpl.la, hpl.ph⟩ (by show 1 ≤ t.length; omega) (fun _ => f3)
    (by rcases hty with rfl | rfl; exact .inl rfl; exact .inr (.inl rfl)) (by show _ ≤ t.address; omega) (by show t.address < _; omega)
  rw [answerAll_ok c2]
  obtain ⟨rcb, mps, cs, hmps, hleg, hans, henc⟩ := hu f _ fn a L c1 ⟨_, henco⟩ hread h1 h2 h3 hen
  have hfits := legal_fits hleg hmps (by omega)
  have hpos := legal_pos hleg
  rw [hc.tx cs (user f) (fun x hx => ?_) henc]
  · exact ⟨rcb, mps, hleg, fun x hx => (hans x hx).own⟩
  · obtain ⟨g0, g1, g2, g3, g4, g5, g6, g7⟩ := hfits x hx
    exact ⟨.CPL_DATA, cpl_encodable (hans x hx) ⟨by have := hlib.tag; omega, hlib.tc, hlib.attr, hlib.requester⟩ g1 rfl g0 g2 ⟨hpos x hx, g3⟩ g5 g6 ⟨fun _ => g4, fun _ => .inl rfl⟩ g7⟩

/-- What the user is told, over all requests of a write, with memories that store the enabled bytes. -/
theorem stored_of {P : Nat → Nat → Tlp → Prop} (hcv : ∀ f t bar fn, carries f t bar fn → conv f = .ok t) {addr bar : Nat} {data : List UInt8} {ts : List Tlp} (hp : Pieces P addr data ts)
    {fs : List F} (ho : Offered carries bar ts fs) (ms : Nat → Mem)
    (hs : ∀ (i : Nat) (f : F) (t : Tlp), fs[i]? = some f → conv f = .ok t → EnabledStored (ms i) (ms (i + 1)) t t.address) : Replaced (ms 0) (ms fs.length) addr data := by
  unfold Offered at ho
  rw [← ho.length_eq, pieces_stored hp ms ?_]
  · exact Mem.write_replaced ..
  · intro i t hi
    obtain ⟨hlt, rfl⟩ := List.getElem?_eq_some_iff.mp hi
    have hlt' : i < fs.length := by rw [← ho.length_eq]; exact hlt
    obtain ⟨fn, h⟩ := ho.get hlt hlt'
    exact hs i _ _ (List.getElem?_eq_getElem hlt') (hcv _ _ _ _ h)

theorem read_all (hc : Codec carries enc mk conv) (p : RxLimits) (s : IntelDev F) (wss : List (List Window)) (w : Window) (m : Mem) (user : F → List F) (c : ReqCfg) (tag : Tlp → Nat)
    (addr length attr tc : Nat) (hb : InWindow s.dev.fns false wss w addr length) (hu : FrameReads carries enc m addr length w.idx user) (hid : c.id.Valid) (hbm : c.busMasterEnable = true)
    (h0 : 0 < length) (ha : attr < 8) (htc : tc < 8) (htag : ∀ t, tag t < 256) :
    ∃ bytes, Region.read c (s.answer mk conv p user tag) addr length attr tc = .ok bytes ∧ Holds m addr length bytes := by
  refine ⟨_, region_read c attr tc length addr h0 hbm m _ ?_, Mem.read_holds ..⟩
  intro a L h1 h2 h3 h4 h5
  have hmr := readTlp_tag_isMemRead c attr tc a L h1 false
  unfold IntelDev.answer
  rw [hmr]
  obtain ⟨rcb, mps, hl, -⟩ := read_lemma hc p s wss w m user c addr length attr tc hb hu hid ha htc _ (htag (Region.readTlp c attr tc false a L)) a L h1 h2 h3 h4
  have hcl := collect_legal hl []
  rw [List.append_nil] at hcl
  exact ⟨rcb, mps, by rw [hcl]; exact hl⟩

theorem write_all (hc : Codec carries enc mk conv) (hcv : ∀ f t bar fn, carries f t bar fn → conv f = .ok t) (p : RxLimits) (s : IntelDev F) (wss : List (List Window)) (w : Window)
    (c : ReqCfg) (addr : Nat) (data : List UInt8) (attr tc : Nat) (hb : InWindow s.dev.fns false wss w addr data.length) (hid : c.id.Valid) (hbm : c.busMasterEnable = true) (hne : data ≠ [])
    (ha : attr < 8) (htc : tc < 8) :
    ∃ tlps s' o, Region.write c addr data attr tc = .ok tlps ∧ s.run mk p (tlps.map .recv) = some (.ok (s', o)) ∧ Offered carries w.idx tlps (rxOffered o) ∧
      ∀ ms : Nat → Mem, (∀ (i : Nat) (f : F) (t : Tlp), (rxOffered o)[i]? = some f → conv f = .ok t → EnabledStored (ms i) (ms (i + 1)) t t.address) →
        Replaced (ms 0) (ms (rxOffered o).length) addr data := by
  have h0 : ¬ data.length = 0 := fun h => hne (List.length_eq_zero_iff.1 h)
  have hp := mem_pieces c attr tc hid ha htc data data.length 0 addr rfl (by omega)
  rw [List.drop_zero] at hp
  have hin := pieces_within hp
  have hpl := writeLoop_plain c attr tc data data.length 0 addr rfl
  have hw : Region.write c addr data attr tc = .ok (Region.writeLoop c attr tc false data 0 addr) := by
    unfold Region.write; simp only [hbm, not_true_eq_false, if_false, h0, decide_false]
  obtain ⟨s', o, r1, r2, -⟩ := run_ok hc p (Region.writeLoop c attr tc false data 0 addr) s hb (by
    intro t ht
    obtain ⟨⟨_, _, ⟨ty, hlib, hty⟩, hdl⟩, h1, h2⟩ := hin t ht
    obtain ⟨_, ok⟩ := C12_write_requests c addr data attr tc _ hne hw
    have hfmt : ¬ (t.fmt = 0 ∨ t.fmt = 1) := by
      have hv := congrArg Prod.fst (fmtType_value hlib.type)
      rcases hty with rfl | rfl <;> simp [TlpType.value] at hv <;> omega
    exact ⟨ty, hlib, hpl t ht, (ok t ht).1.length_pos, fun h => absurd h hfmt, by rcases hty with rfl | rfl; exact .inr (.inr (.inl rfl)); exact .inr (.inr (.inr rfl)), h1, h2⟩)
  exact ⟨_, s', o, hw, r1, r2, fun ms hs => stored_of hcv hp r2 ms hs⟩

theorem io_read_all (hc : Codec carries enc mk conv) (p : RxLimits) (s : IntelDev F) (wss : List (List Window)) (w : Window) (m : Mem) (user : F → List F) (c : ReqCfg) (tag : Tlp → Nat)
    (addr length : Nat) (hb : InWindow s.dev.fns true wss w addr length) (hlo : addr + length ≤ 2 ^ 32) (hu : FrameIoReads carries enc m addr length user) (hid : c.id.Valid)
    (hbm : c.busMasterEnable = true) (h0 : 0 < length) (htag : ∀ t, tag t < 256) :
    ∃ bytes, IoRegion.read c (s.answer mk conv p user tag) addr length = .ok bytes ∧ Holds m addr length bytes := by
  refine ⟨_, IoRegion.read_ok c length addr h0 hbm m _ ?_, Mem.read_holds ..⟩
  intro a L h1 h2 h3 h4
  obtain ⟨hio, f1, f2, f3⟩ := IoRegion.readTlp_ok c false a L h1 h4
  have hen := IoRegion.readTlp_enabled c a L
  have hr := ioReadTlp_rest c a L
  have hpl := ioReadTlp_plain c a L
  generalize IoRegion.readTlp c false a L = t at *
  have hlib : LibReq .IO_READ { t with tag := tag t } :=
    ⟨hio.type, by show t.length ≤ 1024; rw [hio.one_dword]; omega, htag _, by show t.tc < 8; rw [hio.tc]; omega, by show t.attr < 8; rw [hio.attr]; omega, hr.1,
      by show t.requester_id.Valid; rw [f2]; exact hid, hr.2, by show t.data.length % 4 = 0; rw [f3]; rfl, hio.aligned, by show t.address < 2 ^ 32; rw [f1]; omega⟩
  have hmr := not_memRead_io hio.type (by simp) (by simp)
  unfold IntelDev.answer
  rw [hmr]
  generalize tag t = tg at hlib
  obtain ⟨f, fn, c1, henco, c2⟩ := recv_ok hc p s hb hlib ⟨hpl.fbe, hpl.lbe, hpl.seq, hpl.status, hpl.bcm, hpl.bc, hpl.la, hpl.ph⟩ (by show 1 ≤ t.length; exact Nat.le_of_eq hio.one_dword.symm) (fun _ => f3)
    (.inl rfl) (by show _ ≤ t.address; rw [f1]; omega) (by show t.address < _; rw [f1]; omega)
  rw [answerAll_ok c2]
  obtain ⟨x, hty, hbc, hla, ⟨y, rest, hy, hs, hl, hdl, hbytes⟩, hans, henc⟩ := hu f _ fn a L c1 ⟨_, henco⟩ hio.type hio.one_dword h1 h2 h3 hen
  obtain ⟨rfl, rfl⟩ := List.cons.inj hy
  rw [hc.tx [x] (user f) (by
    intro z hz
    rw [List.mem_singleton.mp hz]
    exact ⟨.CPL_DATA, cpl_encodable hans ⟨by have := hlib.tag; omega, hlib.tc, hlib.attr, hlib.requester⟩ hty rfl hs hla ⟨by omega, by omega⟩ (by omega) (by omega) ⟨fun _ => by omega, fun _ => .inl rfl⟩ (by omega)⟩) henc]
  rw [show Region.collect false [x] = ([x], []) from C20_collects_one _ []]
  exact ⟨_, _, rfl, hs, hl, hdl, hbytes⟩

theorem io_write_all (hc : Codec carries enc mk conv) (hcv : ∀ f t bar fn, carries f t bar fn → conv f = .ok t) (p : RxLimits) (s : IntelDev F) (wss : List (List Window)) (w : Window)
    (user : F → List F) (c : ReqCfg) (tag : Tlp → Nat) (addr : Nat) (data : List UInt8) (hb : InWindow s.dev.fns true wss w addr data.length) (hlo : addr + data.length ≤ 2 ^ 32)
    (hu : FrameIoWrites carries enc user) (hid : c.id.Valid) (hbm : c.busMasterEnable = true) (hne : data ≠ []) (htag : ∀ t, tag t < 256) :
    ∃ reqs s' o, IoRegion.writeReqs c addr data = .ok reqs ∧ s.run mk p (reqs.map fun t => .recv { t with tag := tag t }) = some (.ok (s', o)) ∧
      Offered carries 6 (reqs.map fun t => { t with tag := tag t }) (rxOffered o) ∧
      (∀ ms : Nat → Mem, (∀ (i : Nat) (f : F) (t : Tlp), (rxOffered o)[i]? = some f → conv f = .ok t → EnabledStored (ms i) (ms (i + 1)) t t.address) →
        Replaced (ms 0) (ms (rxOffered o).length) addr data) ∧
      IoRegion.checkAll (reqs.map (s.answer mk conv p user tag)) = .ok () := by
  have h0 : ¬ data.length = 0 := fun h => hne (List.length_eq_zero_iff.1 h)
  have hp := io_pieces c data data.length 0 addr rfl (by omega)
  rw [List.drop_zero] at hp
  have hin := pieces_within hp
  have hplain := ioWriteLoop_plain c data data.length 0 addr rfl
  have hw : IoRegion.writeReqs c addr data = .ok (IoRegion.writeLoop c false data 0 addr) := by
    unfold IoRegion.writeReqs
    simp only [h0, if_false, decide_false, hbm, not_true_eq_false]
  have hlib : ∀ t ∈ IoRegion.writeLoop c false data 0 addr, LibReq .IO_WRITE { t with tag := tag t } ∧ Plain { t with tag := tag t } ∧ 1 ≤ t.length ∧ ¬ (t.fmt = 0 ∨ t.fmt = 1) ∧
      addr / 4 * 4 ≤ t.address ∧ t.address < addr + data.length := by
    intro t ht
    obtain ⟨⟨_, _, hio, f2, f3, r1, r2⟩, h1, h2⟩ := hin t ht
    have hpl := hplain t ht
    refine ⟨⟨hio.type, by show t.length ≤ 1024; rw [hio.one_dword]; omega, htag _, by show t.tc < 8; rw [hio.tc]; omega, by show t.attr < 8; rw [hio.attr]; omega, r1,
      by show t.requester_id.Valid; rw [f2]; exact hid, r2, by show t.data.length % 4 = 0; rw [f3], hio.aligned, by show t.address < 2 ^ 32; omega⟩,
      ⟨hpl.fbe, hpl.lbe, hpl.seq, hpl.status, hpl.bcm, hpl.bc, hpl.la, hpl.ph⟩, Nat.le_of_eq hio.one_dword.symm, ?_, h1, h2⟩
    have hv := congrArg Prod.fst (fmtType_value hio.type)
    simp [TlpType.value] at hv
    omega
  obtain ⟨s', o, r1, r2, -⟩ := run_ok hc p ((IoRegion.writeLoop c false data 0 addr).map fun t => { t with tag := tag t }) s hb (by
    intro t ht
    obtain ⟨x, hx, rfl⟩ := List.mem_map.mp ht
    obtain ⟨g1, g2, g3, g4, g5, g6⟩ := hlib x hx
    exact ⟨_, g1, g2, g3, fun h => absurd h g4, .inr rfl, g5, g6⟩)
  rw [List.map_map] at r1
  refine ⟨_, s', o, hw, r1, r2, ?_, ?_⟩
  · intro ms hs
    unfold Offered at r2
    have hlen : (rxOffered o).length = (IoRegion.writeLoop c false data 0 addr).length := by rw [← r2.length_eq, List.length_map]
    rw [hlen, pieces_stored hp ms ?_]
    · exact Mem.write_replaced ..
    · intro i t hi
      obtain ⟨hlt, rfl⟩ := List.getElem?_eq_some_iff.mp hi
      have hlt' : i < (rxOffered o).length := by rw [hlen]; exact hlt
      obtain ⟨fn, h⟩ := r2.get (by rw [List.length_map]; exact hlt) hlt'
      have := hs i _ _ (List.getElem?_eq_getElem hlt') (hcv _ _ _ _ h)
      simpa [EnabledStored, byteEnabled] using this
  · clear r1 r2 hw hp hin hplain
    generalize IoRegion.writeLoop c false data 0 addr = ts at hlib
    induction ts with
    | nil => rfl
    | cons t ts ih =>
      obtain ⟨g1, g2, g3, g4, g5, g6⟩ := hlib t (by simp)
      have hmr : Region.isMemRead t = false := not_memRead_io (t := t) g1.type (by simp) (by simp)
      obtain ⟨f, fn, c1, henco, c2⟩ := recv_ok hc p s hb g1 g2 g3 (fun h => absurd h g4) (.inr rfl) g5 g6
      obtain ⟨x, hty, hst, hbc, hla, hlen, hdat, hans, henc⟩ := hu f _ fn c1 ⟨_, henco⟩ g1.type
      have ha : s.answer mk conv p user tag t = [x] := by
        unfold IntelDev.answer
        rw [hmr, answerAll_ok c2, hc.tx [x] (user f) (by
          intro z hz
          rw [List.mem_singleton.mp hz]
          exact ⟨.CPL, cpl_encodable hans ⟨by have := g1.tag; omega, g1.tc, g1.attr, g1.requester⟩ hty rfl hst hla ⟨by omega, by omega⟩ (by omega) (by rw [hdat, hlen]; rfl)
            ⟨(fun h => by rcases h with h | h <;> simp at h), fun h => by omega⟩ (by omega)⟩) henc]
        exact congrArg Prod.fst (C20_collects_one _ [])
      rw [List.map_cons, ha]
      unfold IoRegion.checkAll
      simp only [hst, ne_eq, not_true_eq_false, if_false]
      exact ih fun t ht => hlib t (by simp [ht])

end IntelHost
end Pcie
