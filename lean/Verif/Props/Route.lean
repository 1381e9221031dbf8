/-
C26, C27, C45, C48: routing through bridges, devices and switches.
-/
import Verif.Lemmas.Route
import Verif.Lemmas.RouteMore
import Verif.Props.Bar
namespace Pcie
open Spec

/-! ### C26: bridges -/

/-- C26: a TLP from upstream that is not for the bridge itself is forwarded exactly when it is behind the bridge; a type 1
configuration request for the secondary bus becomes a type 0 request with the same content, everything else is unchanged.
Otherwise it is dropped. -/
theorem C26_down_partial {σ} (b : BrFn σ) (t : Tlp) (ty : TlpType) (tg : Target) (ht : t.fmtType = some ty)
    (htg : target t ty = some tg) (hc : t.check = .ok true) (hb : GoodBars b.bars) (hself : ¬ ForFn b.id b.bars tg) :
    ∃ b' es, b.upstreamRecv t = .ok (b', es) ∧
      (ForSecondary b tg → ∃ t', es = [.down t'] ∧ Relayed b.secBus ty t t') ∧
      (¬ ForSecondary b tg → Dropped .up ty t b.id es) := by
  obtain ⟨-, h1, h2⟩ := b.upstreamRecv_spec ht htg hc hb
  by_cases hs : ForSecondary b tg
  · obtain ⟨b', t', e, r⟩ := h1 hself hs
    exact ⟨b', _, e, fun _ => ⟨t', rfl, r⟩, fun h => absurd hs h⟩
  · obtain ⟨b', es, e, r⟩ := h2 hself hs
    exact ⟨b', _, e, fun h => absurd h hs, fun _ => r⟩

/-- C26: a TLP from downstream other than a configuration request, and not for the bridge itself, goes upstream unchanged
exactly when it is not behind the bridge; otherwise it is dropped. The host bridge passes everything up. -/
theorem C26_up_partial {σ} (b : BrFn σ) (t : Tlp) (ty : TlpType) (tg : Target) (ht : t.fmtType = some ty)
    (htg : target t ty = some tg) (hc : t.check = .ok true) (hb : GoodBars b.bars) (hcfg : ty.isCfg = false)
    (hself : b.root = true ∨ ¬ ForFn b.id b.bars tg) :
    ∃ b' es, b.downstreamRecv t = .ok (b', es) ∧
      (b.root = true ∨ ¬ ForSecondary b tg → es = [.up t]) ∧
      (b.root = false → ForSecondary b tg → Dropped .down ty t b.id es) := by
  obtain ⟨-, -, h1, h2⟩ := b.downstreamRecv_spec ht htg hc hb
  by_cases hs : b.root = true ∨ ¬ ForSecondary b tg
  · obtain ⟨b', e⟩ := h1 hcfg hself hs
    exact ⟨b', _, e, fun _ => rfl, fun hr h => absurd h (hs.resolve_left (by simp [hr]))⟩
  · have hr : b.root = false := by cases hr : b.root <;> simp [hr] at hs ⊢
    have hs' : ForSecondary b tg := by simp [hr] at hs; exact hs
    obtain ⟨b', es, e, r⟩ := h2 hcfg hr (hself.resolve_left (by simp [hr])) hs'
    exact ⟨b', es, e, fun h => absurd h hs, fun _ _ => r⟩

/-- C26: configuration requests never travel upstream. -/
theorem C26_no_cfg_up {σ} (b : BrFn σ) (t : Tlp) (ty : TlpType) (tg : Target) (ht : t.fmtType = some ty)
    (htg : target t ty = some tg) (hc : t.check = .ok true) (hb : GoodBars b.bars) (hcfg : ty.isCfg = true) :
    ∃ b' es, b.downstreamRecv t = .ok (b', es) ∧ Dropped .down ty t b.id es :=
  (b.downstreamRecv_spec ht htg hc hb).1 hcfg

/-- C26: a TLP that the bridge itself makes leaves unchanged on the side where its target is. -/
theorem C26_send {σ} (b : BrFn σ) (t : Tlp) (ty : TlpType) (P : Prop) (ht : t.fmtType = some ty) (hP : SendsDown b t ty = some P) (hc : t.check = .ok true) :
    (P → ∃ b', b.send t = .ok (b', [.down t])) ∧ (¬ P → ∃ b', b.send t = .ok (b', [.up t])) := by
  have ha := assertCheck_ok hc
  obtain ⟨m, hm, hm'⟩ : ∃ m, b.matchSecondary t = .ok m ∧ (m = true ↔ P) := by
    unfold SendsDown at hP
    split at hP
    · next tg htg =>
      cases hP
      exact BrFn.matchSecondary_spec ht htg
    · unfold BrFn.matchSecondary
      rw [ht]
      cases ty <;> simp only [Option.some.injEq, reduceCtorEq] at hP <;> cases hP <;>
        simp [TlpType.isCfg0, TlpType.isCfg1, TlpType.isCpl, TlpType.isIo, TlpType.isMem, BrFn.busMatch, BusBehind]
  unfold BrFn.send
  rw [hm]
  simp only
  refine ⟨fun h => ?_, fun h => ?_⟩
  · rw [if_pos (hm'.mpr h)]
    unfold BrFn.downstreamSend
    rw [ha]
    exact ⟨_, rfl⟩
  · rw [if_neg (fun hh => h (hm'.mp hh))]
    unfold BrFn.upstreamSend
    rw [ha]
    exact ⟨_, rfl⟩

/-- A bridge with buses 1 to 3 behind it, a memory window and a prefetchable window. -/
def exBridge : BrFn Unit :=
  { caps := (), secBus := 1, subBus := 3, memBase := 0x80000000, memLimit := 0x800fffff, prefBase := 0x200000000,
    prefLimit := 0x2000fffff, ioBase := 0x1000, ioLimit := 0x1fff, id := ⟨0, 1, 0⟩, bars := List.replicate 2 {} }

theorem exBridge_bars : GoodBars exBridge.bars := fun addr io => ⟨none, rfl⟩

def exRead : Tlp := ({ address := 0x800ffffc, length := 1, first_be := 0xf, tag := 5, requester_id := ⟨0, 0, 0⟩ } : Tlp).setFmtType .MEM_READ

example : ∃ b', exBridge.upstreamRecv exRead = .ok (b', [.down exRead]) := by
  obtain ⟨b', es, h, h1, -⟩ := C26_down_partial exBridge exRead .MEM_READ (.mem 0x800ffffc) (by decide) (by decide) rfl
    exBridge_bars (by rintro ⟨hit, h⟩; exact absurd h (by unfold exBridge; simp [matchBar, matchBarFrom]))
  obtain ⟨t', rfl, ht'⟩ := h1 (.inl ⟨by decide, by decide⟩)
  have : t' = exRead := by simpa [Relayed] using ht'
  exact ⟨b', this ▸ h⟩

/-- A broadcast message, and a completion for a function on bus 2. -/
def exBcast : Tlp := ({} : Tlp).setFmtType .MSG_BCAST
@[inherit_doc exBcast] def exCplDown : Tlp := ({ requester_id := ⟨2, 0, 0⟩, byte_count := 4 } : Tlp).setFmtType .CPL

example : ∃ b', exBridge.send exBcast = .ok (b', [.down exBcast]) :=
  (C26_send exBridge exBcast .MSG_BCAST True (by decide) rfl rfl).1 trivial
example : ∃ b', exBridge.send exCplDown = .ok (b', [.down exCplDown]) :=
  (C26_send exBridge exCplDown .CPL _ (by decide) rfl rfl).1 ⟨by decide, by decide, by decide⟩

/-- C26 fails for the enable bits: a bridge whose memory space is disabled (command register) forwards memory requests. -/
theorem C26_enable_ignored_violated :
    exBridge.memEnable = false ∧ (exBridge.upstreamRecv exRead).toOption.map Prod.snd = some [.down exRead] := by
  decide +kernel

/-- C26 fails for messages: every message TLP makes a bridge raise an exception, from either side (from downstream, unless
it is the host bridge). -/
theorem C26_messages_violated {σ} (b : BrFn σ) (t : Tlp) (ty : TlpType) (ht : t.fmtType = some ty)
    (hm : ty ∈ [.MSG_TO_RC, .MSG_ADDR, .MSG_ID, .MSG_BCAST, .MSG_LOCAL, .MSG_GATHER, .MSG_DATA_TO_RC, .MSG_DATA_ADDR,
      .MSG_DATA_ID, .MSG_DATA_BCAST, .MSG_DATA_LOCAL, .MSG_DATA_GATHER]) :
    (∃ e, b.upstreamRecv t = .error e) ∧ (b.root = false → ∃ e, b.downstreamRecv t = .error e) := by
  have key : matchTlp b.id b.bars t = .error "TODO" := by
    unfold matchTlp
    rw [ht]
    simp only [List.mem_cons, List.not_mem_nil, or_false] at hm
    rcases hm with h | h | h | h | h | h | h | h | h | h | h | h <;> rw [h] <;> rfl
  have hncfg : ty.isCfg = false := by
    simp only [List.mem_cons, List.not_mem_nil, or_false] at hm
    rcases hm with h | h | h | h | h | h | h | h | h | h | h | h <;> rw [h] <;> rfl
  constructor
  · unfold BrFn.upstreamRecv
    cases h : assertCheck t with
    | error e => exact ⟨e, rfl⟩
    | ok u =>
      have : ∀ b1 : BrFn σ, b1.id = b.id → b1.bars = b.bars → matchTlp b1.id b1.bars t = .error "TODO" := by
        intro b1 h1 h2; rw [h1, h2]; exact key
      simp only
      rw [this]
      · exact ⟨_, rfl⟩
      · split <;> rfl
      · split <;> rfl
  · intro hr
    unfold BrFn.downstreamRecv
    cases h : assertCheck t with
    | error e => exact ⟨e, rfl⟩
    | ok u =>
      have : ∀ b1 : BrFn σ, b1.id = b.id → b1.bars = b.bars → b1.root = b.root →
          (if ty.isCfg = true ∨ b1.root = true then (.ok false : Py Bool) else matchTlp b1.id b1.bars t) = .error "TODO" := by
        intro b1 h1 h2 h3
        rw [if_neg (by rw [hncfg, h3, hr]; simp), h1, h2]; exact key
      rw [ht]
      simp only [Option.any_some]
      rw [this]
      · exact ⟨_, rfl⟩
      · split <;> rfl
      · split <;> rfl
      · split <;> rfl

/-! ### C27: every request is answered, once -/

/-- C27 (part): a TLP that reaches a device goes to the first function that it is for, or else is dropped, with an
unsupported request completion exactly if it is a non-posted request. The completer ID is the device's function 0.
Missing: types that the library does not support (`C27_unsupported_violated`). -/
theorem C27_device_partial (d : Dev) (t : Tlp) (ty : TlpType) (tg : Target) (ht : t.fmtType = some ty)
    (htg : target t ty = some tg) (hc : t.check = .ok true) (hb : ∀ f ∈ d.fns, GoodBars f.bars)
    (hp : ∀ f ∈ d.fns, ForFn f.id f.bars tg → Prepared f.handlers ty t) :
    ∃ d' who es, d.upstreamRecv t = .ok (d', who, es) ∧
      (match who with
      | some k => ∃ f, d.fns[k]? = some f ∧ ForFn f.id f.bars tg ∧ Taken ty t es ∧
          ∀ k' f', k' < k → d.fns[k']? = some f' → ¬ ForFn f'.id f'.bars tg
      | none => (∀ f ∈ d.fns, ¬ ForFn f.id f.bars tg) ∧ Dropped .up ty t ⟨d'.bus, 0, 0⟩ es) ∧
      d'.bus = busAfter d.bus tg :=
  Dev.upstreamRecv_spec d ht htg hc hb hp

/-- C27 (part): a bridge hands a TLP from upstream to its own function, forwards it, or drops it: exactly one of these. -/
theorem C27_bridge_partial {σ} (b : BrFn σ) (t : Tlp) (ty : TlpType) (tg : Target) (ht : t.fmtType = some ty)
    (htg : target t ty = some tg) (hc : t.check = .ok true) (hb : GoodBars b.bars)
    (hp : ForFn b.id b.bars tg → Prepared b.handlers ty t) :
    ∃ b' es, b.upstreamRecv t = .ok (b', es) ∧ (Taken ty t es ∨ (∃ t', es = [.down t'] ∧ Relayed b.secBus ty t t') ∨
      Dropped .up ty t b.id es) := by
  by_cases hs : ForFn b.id b.bars tg
  · obtain ⟨b', es, e, h⟩ := (b.upstreamRecv_spec ht htg hc hb).1 hs (hp hs)
    exact ⟨b', es, e, .inl h⟩
  · obtain ⟨b', es, e, h1, h2⟩ := C26_down_partial b t ty tg ht htg hc hb hs
    refine ⟨b', es, e, .inr ?_⟩
    by_cases h : ForSecondary b tg
    · exact .inl (h1 h)
    · exact .inr (h2 h)

/-- C27 (part): likewise from downstream. -/
theorem C27_bridge_down_partial {σ} (b : BrFn σ) (t : Tlp) (ty : TlpType) (tg : Target) (ht : t.fmtType = some ty)
    (htg : target t ty = some tg) (hc : t.check = .ok true) (hb : GoodBars b.bars)
    (hp : ForFn b.id b.bars tg → Prepared b.handlers ty t) :
    ∃ b' es, b.downstreamRecv t = .ok (b', es) ∧ (Taken ty t es ∨ es = [.up t] ∨ Dropped .down ty t b.id es) := by
  obtain ⟨h1, h2, h3, h4⟩ := b.downstreamRecv_spec ht htg hc hb
  cases hcfg : ty.isCfg
  · by_cases hroot : b.root = true
    · obtain ⟨b', e⟩ := h3 hcfg (.inl hroot) (.inl hroot)
      exact ⟨b', _, e, .inr (.inl rfl)⟩
    · have hr : b.root = false := by simpa using hroot
      by_cases hf : ForFn b.id b.bars tg
      · obtain ⟨b', es, e, h⟩ := h2 hcfg hr hf (hp hf)
        exact ⟨b', es, e, .inl h⟩
      · by_cases hs : ForSecondary b tg
        · obtain ⟨b', es, e, h⟩ := h4 hcfg hr hf hs
          exact ⟨b', es, e, .inr (.inr h)⟩
        · obtain ⟨b', e⟩ := h3 hcfg (.inr hf) (.inr hs)
          exact ⟨b', _, e, .inr (.inl rfl)⟩
  · obtain ⟨b', es, e, h⟩ := h1 hcfg
    exact ⟨b', es, e, .inr (.inr h)⟩

/-- C27 fails for locked reads and atomic operations: they are legal requests that need a completion, but a device with a
function raises an exception instead of answering. -/
theorem C27_unsupported_violated (d : Dev) (f : RFn) (fns : List RFn) (t : Tlp) (ty : TlpType) (hd : d.fns = f :: fns)
    (ht : t.fmtType = some ty)
    (hm : ty ∈ [.MEM_READ_LOCKED, .MEM_READ_LOCKED_64, .FETCH_ADD, .FETCH_ADD_64, .SWAP, .SWAP_64, .CAS, .CAS_64]) :
    ∃ e, d.upstreamRecv t = .error e := by
  have key : ∀ f : RFn, matchTlp f.id f.bars t = .error "TODO" := by
    intro f
    unfold matchTlp
    rw [ht]
    simp only [List.mem_cons, List.not_mem_nil, or_false] at hm
    rcases hm with h | h | h | h | h | h | h | h <;> rw [h] <;> rfl
  have hncfg : ty.isCfg0 = false := by
    simp only [List.mem_cons, List.not_mem_nil, or_false] at hm
    rcases hm with h | h | h | h | h | h | h | h <;> rw [h] <;> rfl
  unfold Dev.upstreamRecv
  cases h : assertCheck t with
  | error e => exact ⟨e, rfl⟩
  | ok u =>
    have hl : d.latch t = d := by unfold Dev.latch; rw [ht]; simp [hncfg]
    simp only [hl, hd, Dev.findFn, key]
    exact ⟨_, rfl⟩

/-- An endpoint device with the BARs of `exBars` that handles memory reads. -/
def exDev : Dev := { bus := 2, fns := [{ id := ⟨2, 3, 0⟩, bars := exBars, handlers := [.CFG_READ_0, .CFG_WRITE_0, .MEM_READ] }] }

example : exDev.upstreamRecv { exRead with address := 0x80000018 } =
    .ok (exDev, some 0, [.release, .handler { exRead with address := 0x80000018 }]) := by rfl

/-- Nobody claims the address: one unsupported request completion. -/
example : ∃ cpl, IsUr cpl exRead ⟨2, 0, 0⟩ ∧ exDev.upstreamRecv exRead = .ok (exDev, none, [.release, .up cpl]) :=
  ⟨exRead.createUr ⟨2, 0, 0⟩, createUr_isUr _ _, by rfl⟩

example : GoodBars exBars := goodBars_of_layout exLayout (by decide)

/-- C27: which addresses a function is addressed by: those of its configured windows (C28 has the restrictions). -/
theorem C27_decodes (bars : List BarReg) (ws : List Window) (io : Bool) (addr : Nat) (h : Layout 0 bars ws)
    (hk : ∀ w ∈ ws, w.k < 32) (ha : addr < 2 ^ 64) (hw : addr < 2 ^ 32 ∨ ∀ w ∈ ws, w.wide = true) :
    GoodBars bars ∧ (Decodes bars io addr ↔ ∃ w ∈ ws, w.io = io ∧ w.base ≤ addr ∧ addr < w.base + 2 ^ w.k) := by
  refine ⟨goodBars_of_layout h hk, ?_⟩
  unfold Decodes
  rw [C28_decode_partial bars ws io addr h hk ha hw]
  constructor
  · rintro ⟨hit, e⟩
    cases hf : ws.find? (fun w => w.io == io && w.contains addr) with
    | none => rw [hf] at e; cases e
    | some w =>
      have h1 := List.find?_some hf
      simp only [Bool.and_eq_true, beq_iff_eq, Window.contains, decide_eq_true_eq] at h1
      exact ⟨w, List.mem_of_find?_eq_some hf, h1.1, h1.2⟩
  · rintro ⟨w, hw1, hw2, hw3⟩
    cases hf : ws.find? (fun w => w.io == io && w.contains addr) with
    | none =>
      have := List.find?_eq_none.1 hf w hw1
      simp [hw2, hw3, Window.contains] at this
    | some v => exact ⟨_, rfl⟩

/-- C27: the handler of a memory endpoint answers every legal memory read that reaches it: at least one completion, each
with the requester ID and tag of the request and the endpoint's ID. -/
theorem C27_endpoint_read (e : MemEp) (t : Tlp) (ty : TlpType) (ht : t.fmtType = some ty) (hty : ty = .MEM_READ ∨ ty = .MEM_READ_64)
    (hc : t.check = .ok true) (hl : 0 < t.length) (hb : GoodBars e.bars)
    (hreg : ∀ r off, matchBar e.bars t.address = .ok (some (r, off)) → ∃ buf, e.regions[r]? = some (some buf)) :
    ∃ cpls, e.handleMemRead t = .ok cpls ∧ cpls ≠ [] ∧
      ∀ c ∈ cpls, c.requester_id = t.requester_id ∧ c.tag = t.tag ∧ c.completer_id = e.id := by
  exact MemEp.handleMemRead_answers e t ty ht hty hc hl hb hreg

/-- C27: the root complex answers every legal memory read. -/
theorem C27_rc_read (c : CplCfg) (s : AddrSpace) (t : Tlp) (ty : TlpType) (ht : t.fmtType = some ty)
    (hty : ty = .MEM_READ ∨ ty = .MEM_READ_64) (hc : t.check = .ok true) (hl : 0 < t.length) :
    Rc.handleMemRead c s t ≠ [] ∧
      ∀ x ∈ Rc.handleMemRead c s t, x.requester_id = t.requester_id ∧ x.tag = t.tag ∧ x.completer_id = c.id := by
  exact Rc.handleMemRead_answers c s t ty ht hty hc hl

/-- C27: I/O requests of one dword get exactly one completion, from the root complex and from memory endpoints. -/
theorem C27_io_one (e : MemEp) (s : AddrSpace) (id : PcieId) (t : Tlp) (hl : t.length = 1) :
    (∃ x, Rc.handleIoRead id s t = .ok [x] ∧ x.requester_id = t.requester_id ∧ x.tag = t.tag ∧ x.completer_id = id) ∧
    (∃ s' x, Rc.handleIoWrite id s t = .ok (s', [x]) ∧ x.requester_id = t.requester_id ∧ x.tag = t.tag ∧ x.completer_id = id) ∧
    (∀ cpls, e.handleIoRead t = .ok cpls → ∃ x, cpls = [x] ∧ x.requester_id = t.requester_id ∧ x.tag = t.tag ∧ x.completer_id = e.id) ∧
    (∀ e' cpls, e.handleIoWrite t = .ok (e', cpls) →
      ∃ x, cpls = [x] ∧ x.requester_id = t.requester_id ∧ x.tag = t.tag ∧ x.completer_id = e'.id) := by
  exact io_one e s id t hl

/-! ### C45: switches -/

/-- C45: one TLP in the ingress queue of port `i`: it goes to the first other port that takes it, or it is dropped, with
one unsupported request completion if it is a non-posted request. -/
theorem C45_route_partial {σ} (ports : List (SwPort σ)) (i : Nat) (t : Tlp) (ty : TlpType) (tg : Target) (hi : i < ports.length)
    (ht : t.fmtType = some ty) (htg : target t ty = some tg) (hb : ∀ p ∈ ports, GoodBars p.bridge.bars) :
    ∃ out, Sw.route ports i t = .ok out ∧
      match out with
      | .to j => j ≠ i ∧ ∃ p, ports[j]? = some p ∧ PortTakes p tg ∧
          ∀ j' p', j' < j → j' ≠ i → ports[j']? = some p' → ¬ PortTakes p' tg
      | .drop answers => (∀ j p, j ≠ i → ports[j]? = some p → ¬ PortTakes p tg) ∧
          if NonPosted ty then ∃ cpl, IsUr cpl t ports[i].bridge.id ∧ answers = [cpl] else answers = [] :=
  Sw.route_spec ports i hi ht htg hb

/-- C45: if exactly one other port takes the TLP, that is where it goes. -/
theorem C45_unique_partial {σ} (ports : List (SwPort σ)) (i j : Nat) (p : SwPort σ) (t : Tlp) (ty : TlpType) (tg : Target)
    (hi : i < ports.length) (ht : t.fmtType = some ty) (htg : target t ty = some tg) (hb : ∀ p ∈ ports, GoodBars p.bridge.bars)
    (hj : ports[j]? = some p) (hij : j ≠ i) (hp : PortTakes p tg)
    (hu : ∀ j' p', j' ≠ i → j' ≠ j → ports[j']? = some p' → ¬ PortTakes p' tg) : Sw.route ports i t = .ok (.to j) := by
  obtain ⟨out, e, h⟩ := C45_route_partial ports i t ty tg hi ht htg hb
  rw [e]
  cases out with
  | to j' =>
    obtain ⟨h1, p', h2, h3, -⟩ := h
    by_cases hjj : j' = j
    · rw [hjj]
    · exact absurd h3 (hu j' p' h1 hjj h2)
  | drop a => exact absurd hp (h.1 j p hij hj)

/-- C45: from the upstream link to a downstream link. A TLP that is behind downstream port `j` leaves the switch there and
nowhere else; a type 1 configuration request for the bus below becomes type 0. -/
theorem C45_downwards_partial {σ} (ports : List (SwPort σ)) (h : SwitchOk ports) (p0 p : SwPort σ) (j : Nat) (t : Tlp)
    (ty : TlpType) (tg : Target) (hp0 : ports[0]? = some p0) (hj : 0 < j) (hp : ports[j]? = some p)
    (ht : t.fmtType = some ty) (htg : target t ty = some tg) (hc : t.check = .ok true)
    (hself : ∀ q ∈ ports, ¬ ForFn q.bridge.id q.bridge.bars tg) (hin : ForSecondary p.bridge tg)
    (hbus : ∀ i, tg = .cfg1 i → i.bus ≠ p0.bridge.secBus) :
    ∃ b0 b1 t', p0.bridge.upstreamRecv t = .ok (b0, [.down t]) ∧ Sw.route ports 0 t = .ok (.to j) ∧
      p.bridge.upstreamRecv t = .ok (b1, [.down t']) ∧ Relayed p.bridge.secBus ty t t' := by
  have m0 : p0 ∈ ports := List.mem_of_getElem? hp0
  have mj : p ∈ ports := List.mem_of_getElem? hp
  have hlen : 0 < ports.length := List.length_pos_of_mem m0
  obtain ⟨b0, es, e0, r0, -⟩ := C26_down_partial p0.bridge t ty tg ht htg hc (h.bars _ m0) (hself _ m0)
  obtain ⟨t0, rfl, hr0⟩ := r0 (h.nested j p p0 tg hj hp hp0 hin)
  have ht0 : t0 = t := by
    unfold Relayed at hr0
    rw [if_neg] at hr0
    · exact hr0
    · rintro ⟨ht1, hb⟩
      rcases ht1 with e | e <;> subst e <;> cases htg <;> exact hbus _ rfl hb
  subst ht0
  have e1 := C45_unique_partial ports 0 j p t0 ty tg hlen ht htg h.bars hp (by omega)
    (.inr (by rw [h.down j p hj hp]; simpa using hin)) (by
      intro j' p' h1 h2 h3
      rintro (hh | hh)
      · exact hself _ (List.mem_of_getElem? h3) hh
      · rw [h.down j' p' (by omega) h3] at hh
        exact h.disjoint j j' p p' tg hj (by omega) (fun e => h2 e.symm) hp h3 hin (by simpa using hh))
  obtain ⟨b1, es, e2, r2, -⟩ := C26_down_partial p.bridge t0 ty tg ht htg hc (h.bars _ mj) (hself _ mj)
  obtain ⟨t', rfl, hr⟩ := r2 hin
  exact ⟨b0, b1, t', e0, e1, e2, hr⟩

/-- C45: from a downstream link to the upstream link: a TLP other than a configuration request, whose target is not behind
the switch, leaves upstream unchanged. -/
theorem C45_upwards_partial {σ} (ports : List (SwPort σ)) (h : SwitchOk ports) (p0 p : SwPort σ) (i : Nat) (t : Tlp)
    (ty : TlpType) (tg : Target) (hp0 : ports[0]? = some p0) (hi : 0 < i) (hp : ports[i]? = some p)
    (ht : t.fmtType = some ty) (htg : target t ty = some tg) (hc : t.check = .ok true) (hcfg : ty.isCfg = false)
    (hself : ∀ q ∈ ports, ¬ ForFn q.bridge.id q.bridge.bars tg) (hout : ¬ ForSecondary p0.bridge tg) :
    ∃ b0 b1, p.bridge.downstreamRecv t = .ok (b1, [.up t]) ∧ Sw.route ports i t = .ok (.to 0) ∧
      p0.bridge.downstreamRecv t = .ok (b0, [.up t]) := by
  have m0 : p0 ∈ ports := List.mem_of_getElem? hp0
  have mi : p ∈ ports := List.mem_of_getElem? hp
  have hlen : i < ports.length := (List.getElem?_eq_some_iff.1 hp).1
  obtain ⟨b1, es, e1, r1, -⟩ := C26_up_partial p.bridge t ty tg ht htg hc (h.bars _ mi) hcfg (.inr (hself _ mi))
  cases r1 (.inr fun hs => hout (h.nested i p p0 tg hi hp hp0 hs))
  obtain ⟨b0, es, e0, r0, -⟩ := C26_up_partial p0.bridge t ty tg ht htg hc (h.bars _ m0) hcfg (.inr (hself _ m0))
  cases r0 (.inr hout)
  refine ⟨b0, b1, e1, C45_unique_partial ports i 0 p0 t ty tg hlen ht htg h.bars hp0 (by omega)
    (.inr (by rw [h.up p0 hp0]; simpa using hout)) ?_, e0⟩
  intro j' p' h1 h2 h3
  rintro (hh | hh)
  · exact hself _ (List.mem_of_getElem? h3) hh
  · rw [h.down j' p' (by omega) h3] at hh
    exact hout (h.nested j' p' p0 tg (by omega) h3 hp0 (by simpa using hh))

/-- C45: between two downstream links. -/
theorem C45_peer_partial {σ} (ports : List (SwPort σ)) (h : SwitchOk ports) (p0 p q : SwPort σ) (i j : Nat) (t : Tlp)
    (ty : TlpType) (tg : Target) (hp0 : ports[0]? = some p0) (hi : 0 < i) (hj : 0 < j) (hij : i ≠ j)
    (hp : ports[i]? = some p) (hq : ports[j]? = some q)
    (ht : t.fmtType = some ty) (htg : target t ty = some tg) (hc : t.check = .ok true) (hcfg : ty.isCfg = false)
    (hself : ∀ q ∈ ports, ¬ ForFn q.bridge.id q.bridge.bars tg) (hin : ForSecondary q.bridge tg) :
    ∃ b1 b2, p.bridge.downstreamRecv t = .ok (b1, [.up t]) ∧ Sw.route ports i t = .ok (.to j) ∧
      q.bridge.upstreamRecv t = .ok (b2, [.down t]) := by
  have mi : p ∈ ports := List.mem_of_getElem? hp
  have mj : q ∈ ports := List.mem_of_getElem? hq
  have hlen : i < ports.length := (List.getElem?_eq_some_iff.1 hp).1
  obtain ⟨b1, es, e1, r1, -⟩ := C26_up_partial p.bridge t ty tg ht htg hc (h.bars _ mi) hcfg (.inr (hself _ mi))
  cases r1 (.inr (h.disjoint j i q p tg hj hi (fun e => hij e.symm) hq hp hin))
  obtain ⟨b2, es, e2, r2, -⟩ := C26_down_partial q.bridge t ty tg ht htg hc (h.bars _ mj) (hself _ mj)
  obtain ⟨t', rfl, hr⟩ := r2 hin
  have : t' = t := by
    unfold Relayed at hr
    rw [if_neg] at hr
    · exact hr
    · rintro ⟨ht1, -⟩
      rcases ht1 with e | e <;> subst e <;> cases hcfg
  subst this
  refine ⟨b1, b2, e1, C45_unique_partial ports i j q t' ty tg hlen ht htg h.bars hq (fun e => hij e.symm)
    (.inr (by rw [h.down j q hj hq]; simpa using hin)) ?_, e2⟩
  intro j' p' h1 h2 h3
  rintro (hh | hh)
  · exact hself _ (List.mem_of_getElem? h3) hh
  · by_cases h0 : j' = 0
    · subst h0
      rw [hp0] at h3; cases h3
      rw [h.up p0 hp0] at hh
      exact (by simpa using hh : ¬ ForSecondary p0.bridge tg) (h.nested j q p0 tg hj hq hp0 hin)
    · rw [h.down j' p' (by omega) h3] at hh
      exact h.disjoint j j' q p' tg hj (by omega) (fun e => h2 e.symm) hq h3 hin (by simpa using hh)

/-- C45: a type 1 configuration request for the switch's internal bus reaches the downstream port with that device and
function number as a type 0 request. -/
theorem C45_internal_partial {σ} (ports : List (SwPort σ)) (h : SwitchOk ports) (p0 p : SwPort σ) (j : Nat) (t : Tlp)
    (ty : TlpType) (hp0 : ports[0]? = some p0) (hj : 0 < j) (hp : ports[j]? = some p)
    (ht : t.fmtType = some ty) (hty : ty = .CFG_READ_1 ∨ ty = .CFG_WRITE_1) (hc : t.check = .ok true)
    (hbus : t.completer_id.bus = p0.bridge.secBus) (hsub : p0.bridge.secBus ≤ p0.bridge.subBus) (hne : t.completer_id ≠ ⟨0, 0, 0⟩)
    (hid : t.completer_id.device = p.bridge.id.device ∧ t.completer_id.function = p.bridge.id.function)
    (hu : ∀ j' p', 0 < j' → j' ≠ j → ports[j']? = some p' →
      ¬ (t.completer_id.device = p'.bridge.id.device ∧ t.completer_id.function = p'.bridge.id.function))
    (hh : .CFG_READ_0 ∈ p.bridge.handlers ∧ .CFG_WRITE_0 ∈ p.bridge.handlers) :
    ∃ b0 b1 t', p0.bridge.upstreamRecv t = .ok (b0, [.down t']) ∧ Sw.route ports 0 t' = .ok (.to j) ∧
      p.bridge.upstreamRecv t' = .ok (b1, [.release, .handler t']) ∧ Relayed p0.bridge.secBus ty t t' := by
  have m0 : p0 ∈ ports := List.mem_of_getElem? hp0
  have mj : p ∈ ports := List.mem_of_getElem? hp
  have hlen : 0 < ports.length := List.length_pos_of_mem m0
  have htg : target t ty = some (.cfg1 t.completer_id) := by rcases hty with e | e <;> rw [e] <;> rfl
  obtain ⟨b0, es, e0, r0, -⟩ := C26_down_partial p0.bridge t ty _ ht htg hc (h.bars _ m0) (by exact fun h => h)
  obtain ⟨t', rfl, hr0⟩ := r0 ⟨by omega, by omega, hne⟩
  have hr := hr0
  unfold Relayed at hr
  rw [if_pos ⟨hty, hbus⟩] at hr
  obtain ⟨ht', hcopy⟩ := hr
  obtain ⟨ty', hty', htgt', hcheck⟩ : ∃ ty', t'.fmtType = some ty' ∧ (ty' = .CFG_READ_0 ∨ ty' = .CFG_WRITE_0) ∧ t'.check = .ok true := by
    refine ⟨_, ht', by rcases hty with e | e <;> simp [e], ?_⟩
    have := BrFn.convert_relayed p0.bridge ht hc
    exact cfg0_check ht hty hc ht' hcopy
  have hcid : t'.completer_id = t.completer_id := by rw [← hcopy]
  have htg' : target t' ty' = some (.cfg0 t.completer_id) := by
    rw [← hcid]; rcases htgt' with e | e <;> rw [e] <;> rfl
  have e1 := C45_unique_partial ports 0 j p t' ty' _ hlen hty' htg' h.bars hp (by omega) (.inl hid) (by
      intro j' p' h1 h2 h3
      rintro (hh' | hh')
      · exact hu j' p' (by omega) h2 h3 hh'
      · rw [h.down j' p' (by omega) h3] at hh'
        exact (by simpa using hh' : ForSecondary p'.bridge (.cfg0 t.completer_id)))
  have hcpl : Completion ty' = false := by rcases htgt' with e | e <;> rw [e] <;> rfl
  obtain ⟨b1, es, e2, hT⟩ := (p.bridge.upstreamRecv_spec hty' htg' hcheck (h.bars _ mj)).1 hid (by
    unfold Prepared
    rw [hcpl]
    rcases htgt' with e | e <;> rw [e]
    · exact hh.1
    · exact hh.2)
  unfold Taken at hT
  rw [hcpl] at hT
  simp only [Bool.false_eq_true, if_false] at hT
  subst hT
  exact ⟨b0, b1, t', e0, e1, e2, hr0⟩

/-- A switch: buses 1 to 3 behind it; bus 2 and 1 MiB behind port 1, bus 3 and 1 MiB behind port 2. -/
def exSwitch : List (SwPort Unit) :=
  [⟨{ caps := (), secBus := 1, subBus := 3, memBase := 0x80000000, memLimit := 0x801fffff, prefBase := 1, prefLimit := 0,
      ioBase := 1, ioLimit := 0, id := ⟨0, 1, 0⟩ }, true⟩,
   ⟨{ caps := (), secBus := 2, subBus := 2, memBase := 0x80000000, memLimit := 0x800fffff, prefBase := 1, prefLimit := 0,
      ioBase := 1, ioLimit := 0, id := ⟨1, 1, 0⟩ }, false⟩,
   ⟨{ caps := (), secBus := 3, subBus := 3, memBase := 0x80100000, memLimit := 0x801fffff, prefBase := 1, prefLimit := 0,
      ioBase := 1, ioLimit := 0, id := ⟨1, 2, 0⟩ }, false⟩]

theorem exSwitch_ok : SwitchOk exSwitch := by
  constructor
  · intro p hp addr io
    simp only [exSwitch, List.mem_cons, List.not_mem_nil, or_false] at hp
    rcases hp with e | e | e <;> rw [e] <;> exact ⟨none, rfl⟩
  · intro p hp
    simp only [exSwitch, List.mem_cons, List.not_mem_nil, or_false] at hp
    rcases hp with e | e | e <;> rw [e]
  · rintro p h; cases h; rfl
  · intro j p hj h
    match j, hj, h with
    | 1, _, h => cases h; rfl
    | 2, _, h => cases h; rfl
    | k + 3, _, h => simp [exSwitch] at h
  · intro j p p0 tg hj h h0
    cases h0
    match j, hj, h with
    | 1, _, h => cases h; cases tg <;> simp only [ForSecondary, BusBehind] <;> first | exact fun h => h | omega | (rintro ⟨h1, h2, h3⟩; exact ⟨by omega, by omega, h3⟩)
    | 2, _, h => cases h; cases tg <;> simp only [ForSecondary, BusBehind] <;> first | exact fun h => h | omega | (rintro ⟨h1, h2, h3⟩; exact ⟨by omega, by omega, h3⟩)
    | k + 3, _, h => simp [exSwitch] at h
  · intro i j p q tg hi hj hij h1 h2
    match i, hi, h1, j, hj, h2 with
    | 1, _, h1, 2, _, h2 =>
      cases h1; cases h2
      cases tg <;> simp only [ForSecondary, BusBehind] <;> first | exact fun h => h.elim | omega | (rintro ⟨a, b, c⟩ ⟨d, e, f⟩; omega)
    | 2, _, h1, 1, _, h2 =>
      cases h1; cases h2
      cases tg <;> simp only [ForSecondary, BusBehind] <;> first | exact fun h => h.elim | omega | (rintro ⟨a, b, c⟩ ⟨d, e, f⟩; omega)
    | 1, _, _, 1, _, _ => exact absurd rfl hij
    | 2, _, _, 2, _, _ => exact absurd rfl hij
    | k + 3, _, h, _, _, _ => simp [exSwitch] at h
    | _, _, _, k + 3, _, h => simp [exSwitch] at h

example : Sw.route exSwitch 0 { exRead with address := 0x80123454 } = .ok (.to 2) := by rfl
example : Sw.route exSwitch 1 { exRead with address := 0x80123454 } = .ok (.to 2) := by rfl
example : Sw.route exSwitch 1 { exRead with address := 0x1234 } = .ok (.to 0) := by rfl
example : Sw.route exSwitch 0 { exRead with address := 0x1234 } = .ok (.drop [exRead.createUr ⟨0, 1, 0⟩]) := by rfl

/-- C45, C27 fail for messages: the switch's routing task dies with an exception. -/
theorem C45_messages_violated {σ} (ports : List (SwPort σ)) (i j : Nat) (p : SwPort σ) (t : Tlp) (ty : TlpType)
    (ht : t.fmtType = some ty) (hj : ports[j]? = some p) (hij : j ≠ i)
    (hm : ty ∈ [.MSG_TO_RC, .MSG_ADDR, .MSG_ID, .MSG_BCAST, .MSG_LOCAL, .MSG_GATHER, .MSG_DATA_TO_RC, .MSG_DATA_ADDR,
      .MSG_DATA_ID, .MSG_DATA_BCAST, .MSG_DATA_LOCAL, .MSG_DATA_GATHER]) :
    ∃ e, Sw.route ports i t = .error e := by
  have key : ∀ p : SwPort σ, Sw.claims p t = .error "TODO" := by
    intro p
    unfold Sw.claims matchTlp
    rw [ht]
    simp only [List.mem_cons, List.not_mem_nil, or_false] at hm
    rcases hm with h | h | h | h | h | h | h | h | h | h | h | h <;> rw [h] <;> rfl
  have : ∀ (l : List (SwPort σ)) k, (∃ j', l[j']? ≠ none ∧ k + j' ≠ i) → Sw.find i t k l = .error "TODO" := by
    intro l
    induction l with
    | nil => rintro k ⟨j', h, -⟩; simp at h
    | cons q l ih =>
      rintro k ⟨j', h1, h2⟩
      unfold Sw.find
      by_cases hk : k = i
      · rw [if_pos hk]
        cases j' with
        | zero => omega
        | succ j' => exact ih (k + 1) ⟨j', by simpa using h1, by omega⟩
      · rw [if_neg hk, key]
  refine ⟨"TODO", ?_⟩
  unfold Sw.route
  rw [this ports 0 ⟨j, by rw [hj]; simp, by omega⟩]

/-! ### C48: error reporting -/

/-- C48: what a function reports about a TLP that it receives: an aborted completion sets "received target abort", an
unsupported request completion "received master abort", a poisoned TLP "master data parity error" if parity error response
is enabled. Nothing is cleared, nothing else is set. -/
theorem C48_function_recv (f f' : RFn) (t : Tlp) (ty : TlpType) (es : List Eff) (ht : t.fmtType = some ty)
    (h : f.upstreamRecv t = .ok (f', es)) :
    f' = { f with
      rcvTargetAbort := f.rcvTargetAbort || (Completion ty && decide (t.status = 4))
      rcvMasterAbort := f.rcvMasterAbort || (Completion ty && decide (t.status = 1))
      masterParity := f.masterParity || (f.parityResp && t.ep) } := by
  unfold RFn.upstreamRecv at h
  cases hc : assertCheck t with
  | error e => rw [hc] at h; cases h
  | ok u =>
    rw [hc, isCompletion_eq ht] at h
    simp only [CplStatus.CA, CplStatus.UR] at h
    split at h
    · cases h
    · simp only [Except.ok.injEq, Prod.mk.injEq] at h
      rw [← h.1]
      by_cases h4 : t.status = 4
      · have h1 : t.status ≠ 1 := by omega
        cases hC : Completion ty <;> cases hp : f.parityResp <;> cases he : t.ep <;> cases f <;> simp_all
      · cases hC : Completion ty <;> cases hp : f.parityResp <;> cases he : t.ep <;> by_cases h1 : t.status = 1 <;> cases f <;> simp_all

/-- C48: what a function reports about a TLP that it sends. -/
theorem C48_function_send (f f' : RFn) (t : Tlp) (ty : TlpType) (es : List Eff) (ht : t.fmtType = some ty)
    (h : f.send t = .ok (f', es)) :
    es = [.up t] ∧ f' = { f with
      sigTargetAbort := f.sigTargetAbort || (Completion ty && decide (t.status = 4))
      masterParity := f.masterParity || (f.parityResp && t.ep) } := by
  unfold RFn.send at h
  cases hc : assertCheck t with
  | error e => rw [hc] at h; cases h
  | ok u =>
    rw [hc, isCompletion_eq ht] at h
    simp only [CplStatus.CA, Except.ok.injEq, Prod.mk.injEq] at h
    refine ⟨h.2.symm, ?_⟩
    rw [← h.1]
    cases hC : Completion ty <;> cases hp : f.parityResp <;> cases he : t.ep <;> by_cases h1 : t.status = 4 <;> cases f <;> simp_all

/-- The error status bits of a bridge, for the primary and for the secondary side. -/
def errBits {σ} (b : BrFn σ) : List Bool × List Bool :=
  ([b.masterParity, b.sigTargetAbort, b.rcvTargetAbort, b.rcvMasterAbort],
   [b.secMasterParity, b.secSigTargetAbort, b.secRcvTargetAbort, b.secRcvMasterAbort])

/-- C48: what a bridge reports about a completion for its own function, from upstream: primary side bits only. -/
theorem C48_bridge_recv {σ} (b b' : BrFn σ) (t : Tlp) (ty : TlpType) (es : List Eff) (ht : t.fmtType = some ty)
    (hC : Completion ty = true) (hf : t.requester_id = b.id) (h : b.upstreamRecv t = .ok (b', es)) :
    errBits b' = ([b.masterParity || (b.parityResp && t.ep), b.sigTargetAbort, b.rcvTargetAbort || decide (t.status = 4),
      b.rcvMasterAbort || decide (t.status = 1)], (errBits b).2) := by
  have hm : ∀ b1 : BrFn σ, b1.id = b.id → matchTlp b1.id b1.bars t = .ok true := by
    intro b1 h1
    unfold matchTlp
    rw [ht, h1, hf]
    cases ty <;> cases hC <;> simp [TlpType.isCfg0, TlpType.isCfg1, TlpType.isCpl]
  unfold BrFn.upstreamRecv at h
  cases hc : assertCheck t with
  | error e => rw [hc] at h; cases h
  | ok u =>
    rw [hc] at h
    simp only at h
    rw [hm _ (by split <;> rfl), isCompletion_eq ht, hC] at h
    simp only [CplStatus.CA, CplStatus.UR, true_and] at h
    split at h
    · cases h
    · simp only [Except.ok.injEq, Prod.mk.injEq] at h
      rw [← h.1]
      unfold errBits
      by_cases h4 : t.status = 4
      · have h1 : t.status ≠ 1 := by omega
        cases hp : b.parityResp <;> cases he : t.ep <;> simp [h4]
      · by_cases h1 : t.status = 1 <;> cases hp : b.parityResp <;> cases he : t.ep <;> simp [h1, h4]

/-- C48: and from downstream: secondary side bits only. -/
theorem C48_bridge_recv_down {σ} (b b' : BrFn σ) (t : Tlp) (ty : TlpType) (es : List Eff) (ht : t.fmtType = some ty)
    (hC : Completion ty = true) (hf : t.requester_id = b.id) (hr : b.root = false) (h : b.downstreamRecv t = .ok (b', es)) :
    errBits b' = ((errBits b).1, [b.secMasterParity || (b.brParityResp && t.ep), b.secSigTargetAbort,
      b.secRcvTargetAbort || decide (t.status = 4), b.secRcvMasterAbort || decide (t.status = 1)]) := by
  have hm : ∀ b1 : BrFn σ, b1.id = b.id → b1.root = b.root →
      (if ty.isCfg = true ∨ b1.root = true then (.ok false : Py Bool) else matchTlp b1.id b1.bars t) = .ok true := by
    intro b1 h1 h2
    rw [if_neg (by rw [h2, hr]; cases ty <;> cases hC <;> simp [TlpType.isCfg])]
    unfold matchTlp
    rw [ht, h1, hf]
    cases ty <;> cases hC <;> simp [TlpType.isCfg0, TlpType.isCfg1, TlpType.isCpl]
  unfold BrFn.downstreamRecv at h
  cases hc : assertCheck t with
  | error e => rw [hc] at h; cases h
  | ok u =>
    rw [hc] at h
    simp only [ht, Option.any_some] at h
    rw [hm _ (by split <;> rfl) (by split <;> rfl), isCompletion_eq ht, hC] at h
    simp only [CplStatus.CA, CplStatus.UR, true_and] at h
    split at h
    · cases h
    · simp only [Except.ok.injEq, Prod.mk.injEq] at h
      rw [← h.1]
      unfold errBits
      by_cases h4 : t.status = 4
      · have h1 : t.status ≠ 1 := by omega
        cases hp : b.brParityResp <;> cases he : t.ep <;> simp [h4]
      · by_cases h1 : t.status = 1 <;> cases hp : b.brParityResp <;> cases he : t.ep <;> simp [h1, h4]

/-- C48: a poisoned TLP that passes a bridge downwards sets the master data parity bits of both sides, as far as the
respective parity error response is enabled; no other bit changes. -/
theorem C48_poisoned_through {σ} (b b' : BrFn σ) (t t' : Tlp) (ty : TlpType) (tg : Target) (ht : t.fmtType = some ty)
    (htg : target t ty = some tg) (hb : GoodBars b.bars) (hself : ¬ ForFn b.id b.bars tg) (hs : ForSecondary b tg)
    (h : b.upstreamRecv t = .ok (b', [.down t'])) :
    errBits b' = ([b.masterParity || (b.parityResp && t.ep), b.sigTargetAbort, b.rcvTargetAbort, b.rcvMasterAbort],
      [b.secMasterParity || (b.brParityResp && t.ep), b.secSigTargetAbort, b.secRcvTargetAbort, b.secRcvMasterAbort]) := by
  obtain ⟨b1, h1, e1⟩ : ∃ b1 : BrFn σ, b1.Same b ∧ (if b.parityResp = true ∧ t.ep = true then { b with masterParity := true } else b) = b1 := by
    refine ⟨_, ?_, rfl⟩
    split
    · exact ⟨rfl, rfl, rfl, rfl, rfl, rfl, rfl, rfl, rfl, rfl, rfl, rfl⟩
    · exact .refl b
  obtain ⟨m, hm, hm'⟩ := matchTlp_spec (pid := b1.id) (bars := b1.bars) ht htg (by rw [h1.bars]; exact hb)
  obtain ⟨m2, hm2, hm2'⟩ := BrFn.matchSecondary_spec (b := b1) ht htg
  rw [h1.secondary] at hm2'
  rw [h1.id, h1.bars] at hm'
  unfold BrFn.upstreamRecv at h
  cases hc : assertCheck t with
  | error e => rw [hc] at h; cases h
  | ok u =>
    rw [hc] at h
    simp only at h
    rw [e1, hm, hm2, hm2'.2 hs, show m = false from by simpa using fun h => hself (hm'.1 h)] at h
    simp only at h
    have hep : (b1.convert t).ep = t.ep := by
      unfold BrFn.convert
      split
      · split <;> rfl
      · rfl
    unfold BrFn.downstreamSend at h
    split at h
    · cases h
    · simp only [Except.ok.injEq, Prod.mk.injEq] at h
      rw [hep] at h
      rw [← h.1, ← e1]
      unfold errBits
      cases hp : b.parityResp <;> cases he : t.ep <;> cases hq : b.brParityResp <;> simp [hq]

/-- C48 fails for completions which a bridge itself sends to its secondary side: an abort is reported in the primary status
register instead of the secondary one. -/
theorem C48_signaled_abort_violated :
    ((exBridge.send (({ requester_id := ⟨2, 0, 0⟩ } : Tlp).createCa exBridge.id)).toOption.map fun r =>
      (r.1.sigTargetAbort, r.1.secSigTargetAbort, r.2.length)) = some (true, false, 1) ∧
    (exBridge.send (({ requester_id := ⟨2, 0, 0⟩ } : Tlp).createCa exBridge.id)).toOption.map Prod.snd =
      some [.down (({ requester_id := ⟨2, 0, 0⟩ } : Tlp).createCa exBridge.id)] := by
  decide +kernel

example : ∃ f' es, ({ parityResp := true } : RFn).upstreamRecv { ({ tag := 3, status := 4, ep := true } : Tlp).setFmtType .CPL with length := 0 } = .ok (f', es) ∧
    f'.rcvTargetAbort = true ∧ f'.masterParity = true ∧ f'.rcvMasterAbort = false := ⟨_, _, rfl, rfl, rfl, rfl⟩

/-- C28 fails for the enable bits: a function whose memory space enable bit is clear (the reset state) still takes memory
requests for its BARs. -/
theorem C28_disabled_violated :
    ∃ (f : Ep Unit) (t : Tlp), f.memEnable = false ∧ t.fmtType = some .MEM_READ ∧
      (matchTlp ⟨2, 3, 0⟩ f.bars t).toOption = some true :=
  ⟨{ caps := (), bars := exBars }, { exRead with address := 0x80000018 }, rfl, by decide, by decide +kernel⟩

end Pcie
