import Verif.Lemmas.IntelDev
/-
C64: the Intel hard IP models between the link and the user.
-/
namespace Pcie
open Spec IntelDev
variable {F : Type}

/-- The type of an encodable TLP. -/
theorem enc_fmtType {ty : TlpType} {t : Tlp} (h : Encodable ty t) : t.fmtType = some ty := by
  unfold Tlp.fmtType
  have := h.fmt_type
  rw [show t.fmt = ty.value.1 from congrArg Prod.fst this, show t.type = ty.value.2 from congrArg Prod.snd this]
  cases ty <;> rfl

/-! ### What becomes of a TLP from the link -/

/-- C64: a memory or I/O request whose address is in no window of any function is not handed to the user: a non-posted one is answered with an unsupported request completion, a memory
write is dropped. The credits are given back. -/
theorem C64_unclaimed (mk : Tlp → Nat → Nat → Py F) (p : RxLimits) (s : IntelDev F) (t : Tlp) (ty : TlpType) (io : Bool) (wss : List (List Window)) (ht : t.fmtType = some ty)
    (hty : AddressedBy io ty) (hw : Windows s.dev.fns wss) (ha : t.address < 2 ^ 64) (hn : t.address < 2 ^ 32 ∨ ∀ ws ∈ wss, ∀ w ∈ ws, w.wide = true)
    (hc : claimant io t.address wss = none) :
    if NonPosted ty then ∃ cpl, s.recv mk p t = .ok (s, [.release, .up cpl]) ∧ IsUr cpl t ⟨s.dev.bus, 0, 0⟩ else s.recv mk p t = .ok (s, [.release]) := by
  have hf := UsDev.findBar_spec io t.address hw ha hn 0
  rw [hc] at hf
  have hu := answerUr_eq s t
  unfold IntelDev.recv
  rw [ht]
  cases io with
  | true =>
    rcases hty with rfl | rfl <;>
      exact ⟨_, by simp only [TlpType.isCfg0, TlpType.isCfg1, TlpType.isCpl, TlpType.isIo, Bool.false_eq_true, if_false, if_true, IntelDev.recvIo, hf, Option.map_none, hu], createUr_isUr _ _⟩
  | false =>
    rcases hty with rfl | rfl | rfl | rfl
    · exact ⟨_, by simp [TlpType.isCfg0, TlpType.isCfg1, TlpType.isCpl, TlpType.isIo, TlpType.isMem, IntelDev.recvMem, hf, hu, ht], createUr_isUr _ _⟩
    · exact ⟨_, by simp [TlpType.isCfg0, TlpType.isCfg1, TlpType.isCpl, TlpType.isIo, TlpType.isMem, IntelDev.recvMem, hf, hu, ht], createUr_isUr _ _⟩
    · show _ = _
      simp [TlpType.isCfg0, TlpType.isCfg1, TlpType.isCpl, TlpType.isIo, TlpType.isMem, IntelDev.recvMem, hf, ht]
    · show _ = _
      simp [TlpType.isCfg0, TlpType.isCfg1, TlpType.isCpl, TlpType.isIo, TlpType.isMem, IntelDev.recvMem, hf, ht]

/-- A request for a window is handed to the user. -/
theorem intel_claimed (mk : Tlp → Nat → Nat → Py F) (p : RxLimits) (s : IntelDev F) (t : Tlp) (ty : TlpType) (io : Bool) (wss : List (List Window)) (ht : t.fmtType = some ty)
    (hty : AddressedBy io ty) (hw : Windows s.dev.fns wss) (ha : t.address < 2 ^ 64) (hn : t.address < 2 ^ 32 ∨ ∀ ws ∈ wss, ∀ w ∈ ws, w.wide = true) (k : Nat) (w : Window)
    (hc : claimant io t.address wss = some (k, w)) (f : F) (hf : mk t (barCode io w) t.requester_id.function = .ok f) :
    s.recv mk p t = .ok ({ s with queue := s.queue ++ [(t, f)] }, [.user f, .release]) := by
  have hb := UsDev.findBar_spec io t.address hw ha hn 0
  rw [hc] at hb
  unfold IntelDev.recv
  rw [ht]
  cases io with
  | true =>
    have hf : mk t 6 t.requester_id.function = .ok f := hf
    rcases hty with rfl | rfl <;> simp [TlpType.isCfg0, TlpType.isCfg1, TlpType.isCpl, TlpType.isIo, IntelDev.recvIo, hb, hf]
  | false =>
    have hf : mk t w.idx t.requester_id.function = .ok f := hf
    rcases hty with rfl | rfl | rfl | rfl <;>
      simp [TlpType.isCfg0, TlpType.isCfg1, TlpType.isCpl, TlpType.isIo, TlpType.isMem, IntelDev.recvMem, hb, hf]

/-- C64 (part): a request for a window of a function is handed to the user, as a frame that carries this TLP, with the number of the base address register and of the function, and its
credits are given back. Missing: requests of other functions than the one with the number of the function that they are for (`C64_function_violated`). -/
theorem C64_claimed_s10_partial (p : RxLimits) (s : IntelDev S10Frame) (t : Tlp) (ty : TlpType) (io : Bool) (wss : List (List Window)) (ht : Encodable ty t) (hd : t.data.length % 4 = 0)
    (hty : AddressedBy io ty) (hw : Windows s.dev.fns wss) (ha : t.address < 2 ^ 64) (hn : t.address < 2 ^ 32 ∨ ∀ ws ∈ wss, ∀ w ∈ ws, w.wide = true) (k : Nat) (w : Window)
    (hc : claimant io t.address wss = some (k, w)) (g : RFn) (hg : s.dev.fns[k]? = some g) (hr : t.requester_id.function = g.id.function) :
    ∃ f, s.recv S10Frame.ofRx p t = .ok ({ s with queue := s.queue ++ [(t, f)] }, [.user f, .release]) ∧ S10Carries f t (barCode io w) g.id.function := by
  obtain ⟨f, h1, h2⟩ := S10Frame.ofRx_spec ht hd (barCode io w) t.requester_id.function
  exact ⟨f, intel_claimed _ p s t ty io wss (enc_fmtType ht) hty hw ha hn k w hc f h1, hr ▸ h2⟩

/-- C64 (part), likewise for P-Tile. -/
theorem C64_claimed_ptile_partial (p : RxLimits) (s : IntelDev PTileFrame) (t : Tlp) (ty : TlpType) (io : Bool) (wss : List (List Window)) (ht : Encodable ty t) (hd : t.data.length % 4 = 0)
    (hty : AddressedBy io ty) (hw : Windows s.dev.fns wss) (ha : t.address < 2 ^ 64) (hn : t.address < 2 ^ 32 ∨ ∀ ws ∈ wss, ∀ w ∈ ws, w.wide = true) (k : Nat) (w : Window)
    (hc : claimant io t.address wss = some (k, w)) (g : RFn) (hg : s.dev.fns[k]? = some g) (hr : t.requester_id.function = g.id.function) :
    ∃ f, s.recv PTileFrame.ofRx p t = .ok ({ s with queue := s.queue ++ [(t, f)] }, [.user f, .release]) ∧ PTileCarries f t (barCode io w) g.id.function := by
  obtain ⟨f, h1, h2⟩ := PTileFrame.ofRx_spec ht hd (barCode io w) t.requester_id.function
  exact ⟨f, intel_claimed _ p s t ty io wss (enc_fmtType ht) hty hw ha hn k w hc f h1, hr ▸ h2⟩

/-- A completion for one of the functions. -/
theorem intel_completion (mk : Tlp → Nat → Nat → Py F) (p : RxLimits) (s : IntelDev F) (t : Tlp) (ty : TlpType) (ht : t.fmtType = some ty) (hty : Completion ty = true)
    (g : RFn) (hg : g ∈ s.dev.fns) (hid : g.id = t.requester_id) (f : F) (hf : mk t 0 t.requester_id.function = .ok f) :
    s.recv mk p t = if s.cplh + 1 ≤ p.cplh ∧ s.cpld + t.dataCredits ≤ p.cpld then
        .ok ({ s with cplh := s.cplh + 1, cpld := s.cpld + t.dataCredits, queue := s.queue ++ [(t, f)] }, [.user f, .release])
      else .ok (s, [.release]) := by
  have hr : s.recv mk p t = s.recvCpl mk p t := by
    unfold IntelDev.recv
    rw [ht]
    cases ty <;> first | exact absurd hty (by decide) | rfl
  rw [hr]
  unfold IntelDev.recvCpl
  cases hi : UsDev.findId t.requester_id 0 s.dev.fns with
  | none => exact absurd hid (UsDev.findId_none hi g hg)
  | some k => simp only [hf]

/-- C64: a completion for one of the functions is handed to the user, as a frame that carries it, with the number of this function, whenever there is room in the buffer for completions;
otherwise it is dropped. Its credits are given back. -/
theorem C64_completion_s10 (p : RxLimits) (d : Dev) (es : List IntelEv) (s : IntelDev S10Frame) (o : List (IntelObs S10Frame))
    (h : IntelDev.run S10Frame.ofRx p { dev := d } es = some (.ok (s, o))) (t : Tlp) (ty : TlpType) (ht : Encodable ty t) (hd : t.data.length % 4 = 0) (hty : Completion ty = true)
    (g : RFn) (hg : g ∈ s.dev.fns) (hid : g.id = t.requester_id) :
    ∃ f, S10Carries f t 0 g.id.function ∧
      (s.recv S10Frame.ofRx p t = .ok ({ s with cplh := s.cplh + 1, cpld := s.cpld + t.dataCredits, queue := s.queue ++ [(t, f)] }, [.user f, .release]) ∨
        (s.recv S10Frame.ofRx p t = .ok (s, [.release]) ∧
          ¬ ((((s.pending.map Prod.fst).filter Tlp.isCompletion).length + 1 ≤ p.cplh) ∧ cplCredits ((s.pending.map Prod.fst).filter Tlp.isCompletion) + t.dataCredits ≤ p.cpld))) := by
  obtain ⟨f, h1, h2⟩ := S10Frame.ofRx_spec ht hd 0 t.requester_id.function
  have hr := intel_completion S10Frame.ofRx p s t ty (enc_fmtType ht) hty g hg hid f h1
  refine ⟨f, hid ▸ h2, ?_⟩
  by_cases hc : s.cplh + 1 ≤ p.cplh ∧ s.cpld + t.dataCredits ≤ p.cpld
  · rw [if_pos hc] at hr; exact .inl hr
  · rw [if_neg hc] at hr
    refine .inr ⟨hr, fun hx => hc ?_⟩
    obtain ⟨as, r, e, hp⟩ := run_proj es _ s o {} ⟨rfl, rfl, rfl, rfl⟩ h
    obtain ⟨a, b⟩ := C44_intel_occupancy_partial p as r e
    have hh : heldCpls r = (s.pending.map Prod.fst).filter Tlp.isCompletion := by
      unfold heldCpls pendingRx pending
      rw [hp.queue, hp.sending]
      cases s.sending <;> simp
    rw [hh] at a b
    rw [hp.cplh] at a
    rw [hp.cpld] at b
    omega

/-- C64, likewise for P-Tile. -/
theorem C64_completion_ptile (p : RxLimits) (d : Dev) (es : List IntelEv) (s : IntelDev PTileFrame) (o : List (IntelObs PTileFrame))
    (h : IntelDev.run PTileFrame.ofRx p { dev := d } es = some (.ok (s, o))) (t : Tlp) (ty : TlpType) (ht : Encodable ty t) (hd : t.data.length % 4 = 0) (hty : Completion ty = true)
    (g : RFn) (hg : g ∈ s.dev.fns) (hid : g.id = t.requester_id) :
    ∃ f, PTileCarries f t 0 g.id.function ∧
      (s.recv PTileFrame.ofRx p t = .ok ({ s with cplh := s.cplh + 1, cpld := s.cpld + t.dataCredits, queue := s.queue ++ [(t, f)] }, [.user f, .release]) ∨
        (s.recv PTileFrame.ofRx p t = .ok (s, [.release]) ∧
          ¬ ((((s.pending.map Prod.fst).filter Tlp.isCompletion).length + 1 ≤ p.cplh) ∧ cplCredits ((s.pending.map Prod.fst).filter Tlp.isCompletion) + t.dataCredits ≤ p.cpld))) := by
  obtain ⟨f, h1, h2⟩ := PTileFrame.ofRx_spec ht hd 0 t.requester_id.function
  have hr := intel_completion PTileFrame.ofRx p s t ty (enc_fmtType ht) hty g hg hid f h1
  refine ⟨f, hid ▸ h2, ?_⟩
  by_cases hc : s.cplh + 1 ≤ p.cplh ∧ s.cpld + t.dataCredits ≤ p.cpld
  · rw [if_pos hc] at hr; exact .inl hr
  · rw [if_neg hc] at hr
    refine .inr ⟨hr, fun hx => hc ?_⟩
    obtain ⟨as, r, e, hp⟩ := run_proj es _ s o {} ⟨rfl, rfl, rfl, rfl⟩ h
    obtain ⟨a, b⟩ := C44_intel_occupancy_partial p as r e
    have hh : heldCpls r = (s.pending.map Prod.fst).filter Tlp.isCompletion := by
      unfold heldCpls pendingRx pending
      rw [hp.queue, hp.sending]
      cases s.sending <;> simp
    rw [hh] at a b
    rw [hp.cplh] at a
    rw [hp.cpld] at b
    omega

/-- C64: a completion that is for none of the functions is dropped. -/
theorem C64_unexpected (mk : Tlp → Nat → Nat → Py F) (p : RxLimits) (s : IntelDev F) (t : Tlp) (ty : TlpType) (ht : t.fmtType = some ty) (hty : Completion ty = true)
    (hg : ∀ g ∈ s.dev.fns, g.id ≠ t.requester_id) : s.recv mk p t = .ok (s, [.release]) := by
  have hr : s.recv mk p t = s.recvCpl mk p t := by
    unfold IntelDev.recv
    rw [ht]
    cases ty <;> first | exact absurd hty (by decide) | rfl
  rw [hr]
  unfold IntelDev.recvCpl
  cases hi : UsDev.findId t.requester_id 0 s.dev.fns with
  | none => rfl
  | some k =>
    obtain ⟨f, _, h2, h3, _⟩ := UsDev.findId_some hi
    exact absurd h3 (hg f (List.mem_of_getElem? h2))

/-- C64: the device takes the bus number from type 0 configuration requests, the first function with the device and function number of the request gets it, and if there is none, the
request is answered with an unsupported request completion. -/
theorem C64_config (mk : Tlp → Nat → Nat → Py F) (p : RxLimits) (s : IntelDev F) (t : Tlp) (ty : TlpType) (ht : t.fmtType = some ty) (hty : ty = .CFG_READ_0 ∨ ty = .CFG_WRITE_0)
    (hc : t.check = .ok true) (hb : ∀ f ∈ s.dev.fns, f.id.bus = s.dev.bus) (hh : ∀ f ∈ s.dev.fns, ty ∈ f.handlers) :
    ∃ d' : Dev, d'.bus = t.completer_id.bus ∧ (∀ f ∈ d'.fns, f.id.bus = t.completer_id.bus) ∧
      ((∃ k f es, s.recv mk p t = .ok ({ s with dev := d' }, [.fn k es]) ∧ s.dev.fns[k]? = some f ∧ f.id.device = t.completer_id.device ∧
          f.id.function = t.completer_id.function ∧ Taken ty t es ∧
          ∀ (i : Nat) (g : RFn), i < k → s.dev.fns[i]? = some g → ¬ (g.id.device = t.completer_id.device ∧ g.id.function = t.completer_id.function)) ∨
        ((∀ f ∈ s.dev.fns, ¬ (f.id.device = t.completer_id.device ∧ f.id.function = t.completer_id.function)) ∧
          ∃ cpl, s.recv mk p t = .ok ({ s with dev := d' }, [.release, .up cpl]) ∧ IsUr cpl t ⟨t.completer_id.bus, 0, 0⟩)) := by
  have hr : s.recv mk p t = s.recvCfg t := by
    unfold IntelDev.recv
    rw [ht]
    rcases hty with rfl | rfl <;> rfl
  obtain ⟨e1, e2⟩ := UsDev.setBus_fns s.dev t.completer_id.bus hb
  have hid : ∀ f : RFn, ({ f.id with bus := t.completer_id.bus } : PcieId) = t.completer_id ↔
      f.id.device = t.completer_id.device ∧ f.id.function = t.completer_id.function := by
    intro f
    obtain ⟨⟨_, _, _⟩, _, _, _, _, _, _, _⟩ := f
    cases ht : t.completer_id
    simp
  have hbus : ∀ f ∈ (s.dev.setBus t.completer_id.bus).fns, f.id.bus = t.completer_id.bus := by
    rw [e2]
    intro f hf
    obtain ⟨g, _, rfl⟩ := List.mem_map.1 hf
    rfl
  rw [hr]
  unfold IntelDev.recvCfg
  simp only
  cases hfi : UsDev.findId t.completer_id 0 (s.dev.setBus t.completer_id.bus).fns with
  | none =>
    have hn := UsDev.findId_none hfi
    refine ⟨s.dev.setBus t.completer_id.bus, e1, hbus, .inr ⟨fun f hf hx => ?_, _, ?_, createUr_isUr t ⟨t.completer_id.bus, 0, 0⟩⟩⟩
    · refine hn { f with id := { f.id with bus := t.completer_id.bus } } ?_ ((hid f).2 hx)
      rw [e2]
      exact List.mem_map.2 ⟨f, hf, rfl⟩
    · simp only [answerUr_eq, e1]
  | some k =>
    obtain ⟨f', _, h2, h3, h4⟩ := UsDev.findId_some hfi
    rw [Nat.sub_zero] at h2 h4
    simp only [h2]
    rw [e2, List.getElem?_map] at h2
    obtain ⟨f, hf, rfl⟩ := Option.map_eq_some_iff.1 h2
    have hmem : f ∈ s.dev.fns := List.mem_of_getElem? hf
    have hcpl : Completion ty = false := by rcases hty with rfl | rfl <;> rfl
    obtain ⟨f', es, he, hi, htk⟩ := UsDev.fn_recv { f with id := { f.id with bus := t.completer_id.bus } } ht hc
      (by unfold Prepared; rw [hcpl]; exact hh f hmem)
    have hx := (hid f).1 h3
    rw [he]
    refine ⟨{ s.dev.setBus t.completer_id.bus with fns := (s.dev.setBus t.completer_id.bus).fns.set k f' }, e1, fun g hg => ?_,
      .inl ⟨k, f, es, rfl, hf, hx.1, hx.2, htk, fun i g hi hg hxg => ?_⟩⟩
    · rcases List.mem_or_eq_of_mem_set hg with hg | rfl
      · exact hbus g hg
      · rw [hi]
    · refine h4 i { g with id := { g.id with bus := t.completer_id.bus } } hi ?_ ((hid g).2 hxg)
      rw [e2, List.getElem?_map, hg]
      rfl

/-- C64: type 1 configuration requests, which are for devices behind bridges, are answered with unsupported request completions. -/
theorem C64_type1 (mk : Tlp → Nat → Nat → Py F) (p : RxLimits) (s : IntelDev F) (t : Tlp) (ht : t.fmtType = some .CFG_READ_1 ∨ t.fmtType = some .CFG_WRITE_1) :
    ∃ cpl, s.recv mk p t = .ok (s, [.release, .up cpl]) ∧ IsUr cpl t ⟨s.dev.bus, 0, 0⟩ := by
  refine ⟨_, ?_, createUr_isUr t ⟨s.dev.bus, 0, 0⟩⟩
  unfold IntelDev.recv
  rcases ht with ht | ht <;> rw [ht] <;> exact answerUr_eq s t

/-- C64: whatever arrives, its credits are given back exactly once (unless an exception is raised). -/
theorem C64_credits (mk : Tlp → Nat → Nat → Py F) (p : RxLimits) (s s' : IntelDev F) (t : Tlp) (es : List (RxEff F)) (h : s.recv mk p t = .ok (s', es)) : releases es = 1 := by
  rcases recv_cases h with ⟨_, _, h⟩ | ⟨f, bar, _, rfl, _⟩
  · exact h
  · rfl

/-! ### In which order -/

/-- C64: the frames for the user are handed over in the order in which the TLPs arrived; none is lost or duplicated: what is missing is still waiting. -/
theorem C64_order (mk : Tlp → Nat → Nat → Py F) (p : RxLimits) (d : Dev) (es : List IntelEv) (s : IntelDev F) (o : List (IntelObs F))
    (h : IntelDev.run mk p { dev := d } es = some (.ok (s, o))) : rxSent o ++ s.pending.map Prod.snd = rxOffered o := by
  simpa [pending] using run_order es _ s o h

/-- C64: nothing is stuck: if the interface takes what it is given, all frames are handed over. -/
theorem C64_eventually (mk : Tlp → Nat → Nat → Py F) (p : RxLimits) (d : Dev) (es : List IntelEv) (s : IntelDev F) (o : List (IntelObs F))
    (h : IntelDev.run mk p { dev := d } es = some (.ok (s, o))) :
    ∃ es' s' o', (∀ e ∈ es', e = .get ∨ e = .done) ∧ s.run mk p es' = some (.ok (s', o')) ∧ rxSent (o ++ o') = rxOffered o := by
  obtain ⟨es', s', o', h1, h2, h3, h4⟩ := flush (mk := mk) (p := p) _ s rfl
  refine ⟨es', s', o', h1, h2, ?_⟩
  have ho := C64_order mk p d _ s' _ (run_append h h2)
  rw [h3, List.map_nil, List.append_nil, rxOffered_append] at ho
  have : rxOffered o' = [] := by
    unfold rxOffered
    rw [List.flatMap_eq_nil_iff]
    intro x hx
    cases x with
    | sent f => rfl
    | arrived t es =>
      have : t ∈ rxArrived o' := List.mem_filterMap.2 ⟨_, hx, rfl⟩
      rw [h4] at this
      cases this
  rw [ho, this, List.append_nil]

/-! ### From the user to the link -/

/-- C64: the TLPs that the user sends as frames are passed to the link, unchanged, in order, each once. -/
theorem C64_tx_s10 (ts : List Tlp) (fs : List S10Frame) (h : ∀ t ∈ ts, ∃ ty, Encodable ty t ∧ t.data.length % 4 = 0 ∧ t.check = .ok true)
    (hf : ts.map S10Frame.fromTlp = fs.map .ok) : IntelDev.tx S10Frame.toTlp fs = ts := by
  induction ts generalizing fs with
  | nil => cases fs with | nil => rfl | cons _ _ => cases hf
  | cons t ts ih =>
    cases fs with
    | nil => cases hf
    | cons f fs =>
      simp only [List.map_cons, List.cons.injEq] at hf
      obtain ⟨ty, h1, h2, h3⟩ := h t List.mem_cons_self
      obtain ⟨f', e1, e2, _⟩ := C42_s10_tlp ty t h1 h2
      rw [hf.1] at e1
      cases e1
      simp only [IntelDev.tx, e2, assertCheck_ok h3]
      rw [ih fs (fun t ht => h t (List.mem_cons_of_mem _ ht)) hf.2]

/-- C64, likewise for P-Tile. -/
theorem C64_tx_ptile (ts : List Tlp) (fs : List PTileFrame) (h : ∀ t ∈ ts, ∃ ty, Encodable ty t ∧ t.data.length % 4 = 0 ∧ t.check = .ok true)
    (hf : ts.map PTileFrame.fromTlp = fs.map .ok) : IntelDev.tx PTileFrame.toTlp fs = ts := by
  induction ts generalizing fs with
  | nil => cases fs with | nil => rfl | cons _ _ => cases hf
  | cons t ts ih =>
    cases fs with
    | nil => cases hf
    | cons f fs =>
      simp only [List.map_cons, List.cons.injEq] at hf
      obtain ⟨ty, h1, h2, h3⟩ := h t List.mem_cons_self
      obtain ⟨f', e1, e2, _⟩ := C42_ptile_tlp ty t h1 h2
      rw [hf.1] at e1
      cases e1
      simp only [IntelDev.tx, e2, assertCheck_ok h3]
      rw [ih fs (fun t ht => h t (List.mem_cons_of_mem _ ht)) hf.2]

/-! ### The hypotheses can be met -/

/-- A device with two functions: function 0 has a 4 KiB window at 0x10000000 in register 2, function 1 has a 64 KiB window at 0x20000000 in register 2. -/
def intelTwo : Dev :=
  { bus := 1
    fns := [{ id := ⟨1, 0, 0⟩, bars := [{}, {}, ⟨0x10000000, 0xfffff000⟩, {}, {}, {}] }, { id := ⟨1, 0, 1⟩, bars := [{}, {}, ⟨0x20000000, 0xffff0000⟩, {}, {}, {}] }] }

/-- A read and a write of one dword, and a completion. -/
def intelRead (addr : Nat) : Tlp := { fmt := 0, type := 0, length := 1, address := addr, first_be := 15, tag := 3, requester_id := ⟨0, 0, 0⟩ }
@[inherit_doc intelRead] def intelWrite (addr : Nat) : Tlp := { fmt := 2, type := 0, length := 1, address := addr, first_be := 15, data := [1, 2, 3, 4] }
@[inherit_doc intelRead] def intelCpl : Tlp := { fmt := 2, type := 0x0a, length := 1, byte_count := 4, requester_id := ⟨1, 0, 1⟩, tag := 9, data := [1, 2, 3, 4] }

theorem intelTwo_windows : Windows intelTwo.fns [[⟨2, false, false, 0x10000000, 12⟩], [⟨2, false, false, 0x20000000, 16⟩]] :=
  .cons ⟨.absent _ _ _ _ rfl (.absent _ _ _ _ rfl (.mem32 _ _ _ _ _ _ (by decide) (.absent _ _ _ _ rfl (.absent _ _ _ _ rfl (.absent _ _ _ _ rfl (.nil _)))))), by decide⟩
    (.cons ⟨.absent _ _ _ _ rfl (.absent _ _ _ _ rfl (.mem32 _ _ _ _ _ _ (by decide) (.absent _ _ _ _ rfl (.absent _ _ _ _ rfl (.absent _ _ _ _ rfl (.nil _)))))), by decide⟩
      .nil)

/-- C64 fails for other functions: a read of the root complex from the window of function 1 is handed to the user as a request for function 0. -/
theorem C64_function_violated : claimant false 0x20000ffc [[⟨2, false, false, 0x10000000, 12⟩], [⟨2, false, false, 0x20000000, 16⟩]] =
      some (1, ⟨2, false, false, 0x20000000, 16⟩) ∧
    (∃ s f, (IntelDev.recv S10Frame.ofRx {} { dev := intelTwo } (intelRead 0x20000ffc)).toOption = some (s, [.user f, .release]) ∧ f.funcNum = 0) ∧
    (∃ s f, (IntelDev.recv PTileFrame.ofRx {} { dev := intelTwo } (intelRead 0x20000ffc)).toOption = some (s, [.user f, .release]) ∧ f.funcNum = 0) := by
  have conv : ∀ {F : Type} (x : Option (IntelDev F × List (RxEff F))) (q : F → Prop) [DecidablePred q],
      (match x with | some (_, [.user f, .release]) => decide (q f) | _ => false) = true → ∃ s f, x = some (s, [.user f, .release]) ∧ q f := by
    intro F x q _ h
    split at h
    · exact ⟨_, _, rfl, of_decide_eq_true h⟩
    · cases h
  exact ⟨by decide +kernel, conv _ _ (by decide +kernel), conv _ _ (by decide +kernel)⟩

example := C64_unclaimed S10Frame.ofRx {} { dev := intelTwo } (intelRead 0x30000000) .MEM_READ false _ (by decide) (.inl rfl) intelTwo_windows (by decide) (.inl (by decide)) (by decide)
example := C64_config S10Frame.ofRx {} { dev := intelTwo } { fmt := 0, type := 4, length := 1, completer_id := ⟨7, 0, 1⟩, first_be := 15, address := 16 } .CFG_READ_0 (by decide) (.inl rfl)
  (by decide +kernel) (by decide) (by decide)

theorem intelRead_enc (a : Nat) (h : a < 2 ^ 32 ∧ a % 4 = 0) : Encodable .MEM_READ (intelRead a) := by
  constructor
  case body => simp only [intelRead, kind]; exact ⟨by decide, by decide, by decide, by decide, by decide, by decide, h.2, by simpa using h.1⟩
  all_goals first | rfl | (simp only [intelRead]; decide)

theorem intelCpl_enc : Encodable .CPL_DATA intelCpl := by
  constructor
  case length => decide
  case body => simp only [kind]; decide
  all_goals decide

example := C64_claimed_s10_partial {} { dev := intelTwo } (intelRead 0x10000ffc) .MEM_READ false _ (intelRead_enc _ (by decide)) (by decide) (.inl rfl) intelTwo_windows (by decide)
  (.inl (by decide)) 0 ⟨2, false, false, 0x10000000, 12⟩ (by decide) _ rfl rfl

example := C64_claimed_ptile_partial {} { dev := intelTwo } (intelRead 0x10000ffc) .MEM_READ false _ (intelRead_enc _ (by decide)) (by decide) (.inl rfl) intelTwo_windows (by decide)
  (.inl (by decide)) 0 ⟨2, false, false, 0x10000000, 12⟩ (by decide) _ rfl rfl
example := C64_completion_s10 { cplh := 1, cpld := 1 } intelTwo [] { dev := intelTwo } [] rfl intelCpl .CPL_DATA intelCpl_enc (by decide) rfl _ (List.mem_cons_of_mem _ List.mem_cons_self) rfl
example := C64_completion_ptile { cplh := 1, cpld := 1 } intelTwo [] { dev := intelTwo } [] rfl intelCpl .CPL_DATA intelCpl_enc (by decide) rfl _ (List.mem_cons_of_mem _ List.mem_cons_self) rfl
example := C64_unexpected S10Frame.ofRx {} { dev := intelTwo } { intelCpl with requester_id := ⟨1, 0, 2⟩ } .CPL_DATA (by decide) rfl (by decide)
example : ∃ f, S10Frame.fromTlp intelCpl = .ok f ∧ IntelDev.tx S10Frame.toTlp [f, f] = [intelCpl, intelCpl] := by
  obtain ⟨f, e, _⟩ := C42_s10_tlp .CPL_DATA intelCpl intelCpl_enc (by decide)
  exact ⟨f, e, C64_tx_s10 [intelCpl, intelCpl] [f, f] (fun t ht => by simp at ht; subst ht; exact ⟨.CPL_DATA, intelCpl_enc, by decide, by decide +kernel⟩) (by simp [e])⟩
example : ∃ f, PTileFrame.fromTlp intelCpl = .ok f ∧ IntelDev.tx PTileFrame.toTlp [f, f] = [intelCpl, intelCpl] := by
  obtain ⟨f, e, _⟩ := C42_ptile_tlp .CPL_DATA intelCpl intelCpl_enc (by decide)
  exact ⟨f, e, C64_tx_ptile [intelCpl, intelCpl] [f, f] (fun t ht => by simp at ht; subst ht; exact ⟨.CPL_DATA, intelCpl_enc, by decide, by decide +kernel⟩) (by simp [e])⟩

/-- A write, a read and a completion arrive; one frame is handed over. -/
example : ((IntelDev.run S10Frame.ofRx { cplh := 1, cpld := 1 } { dev := intelTwo } [.recv (intelWrite 0x10000000), .recv (intelRead 0x10000004), .get, .recv intelCpl, .recv intelCpl, .done]).bind
      fun r => r.toOption.map fun x => ((rxSent x.2).length, (rxOffered x.2).map (·.funcNum), x.1.pending.length)) = some (1, [0, 0, 1], 2) := by decide +kernel

end Pcie
