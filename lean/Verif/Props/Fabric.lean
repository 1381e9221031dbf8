import Verif.Lemmas.FabricRoot
import Verif.Lemmas.HierEx
import Verif.Props.Enum
/-
C54: a whole hierarchy of switches and devices, and how it is after enumeration.
-/
namespace Pcie
open Spec HierEx
variable {σ : Type}

/-! ### Any hierarchy whose registers are set up -/

/-- C54: a request or completion that comes from above, for a function somewhere in a hierarchy whose registers are set up
for its target, gets to that function, and unchanged. -/
theorem C54_down {n : Node σ} {path : List Nat} {k : Nat} {f : EpFn σ} {t : Tlp} {ty : TlpType} {tg : Target} (hf : FnAt n path k f)
    (hc : Configured tg n) (ht : t.fmtType = some ty) (htg : target t ty = some tg) (hk : t.check = .ok true) (hr : Routed tg)
    (hfor : EpFn.For f tg) (hb : ∀ b, BrIn n b → ¬ ForFn b.id b.bars tg) (hp : Prepared f.handlers ty t) :
    ∃ t' es, n.recv t = .ok (.fn path k es) ∧ Taken ty t' es ∧ Intact t t' :=
  recv_spec hf hc ⟨ht, htg, hk⟩ hr hfor hb hp

/-- C54: a request or completion from a function for a function of another device gets there without leaving the hierarchy
at its top. -/
theorem C54_peer {n : Node σ} {p q : List Nat} {k k' : Nat} {f g : EpFn σ} {t : Tlp} {ty : TlpType} {tg : Target} (hf : FnAt n p k f)
    (hg : FnAt n q k' g) (hpq : p ≠ q) (hc : Configured tg n) (ht : t.fmtType = some ty) (htg : target t ty = some tg)
    (hk : t.check = .ok true) (hr : Routed tg) (hfor : EpFn.For g tg) (hb : ∀ b, BrIn n b → ¬ ForFn b.id b.bars tg)
    (hp : Prepared g.handlers ty t) :
    ∃ t' es, n.send p t = .ok (.fn q k' es) ∧ Taken ty t' es ∧ Intact t t' :=
  have ⟨m, hm⟩ := fnAt_node hf
  rise_peer hm.1 hc ⟨ht, htg, hk⟩ hr hb hg hfor hp (fun h => hpq (fnAt_prefix hf hg h)) rfl

/-- C54: the functions of one device cannot reach each other: the port above the device drops the request and answers it. -/
theorem C54_same_device {n : Node σ} {p : List Nat} {k k' : Nat} {f g : EpFn σ} {t : Tlp} {ty : TlpType} {tg : Target} (_hf : FnAt n p k f)
    (hg : FnAt n p k' g) (hp : p ≠ []) (hc : Configured tg n) (ht : t.fmtType = some ty) (htg : target t ty = some tg)
    (hk : t.check = .ok true) (hr : Routed tg) (hfor : EpFn.For g tg) (hb : ∀ b, BrIn n b → ¬ ForFn b.id b.bars tg) :
    ∃ q j t' es id, p = q ++ [j] ∧ n.send p t = .ok (.port q j es) ∧ Dropped .down ty t' id es ∧ Intact t t' :=
  rise_same hg hc ⟨ht, htg, hk⟩ hr hb hfor hp

/-- C54: a request for nobody is not delivered. -/
theorem C54_unclaimed {n : Node σ} {t : Tlp} {ty : TlpType} {tg : Target} (hc : Configured tg n) (ht : t.fmtType = some ty)
    (htg : target t ty = some tg) (hk : t.check = .ok true) (hr : Routed tg) (hb : ∀ b, BrIn n b → ¬ ForFn b.id b.bars tg)
    (hf : ∀ path k f, FnAt n path k f → ¬ EpFn.For f tg) :
    ∃ fate t', n.recv t = .ok fate ∧ ((∃ path, fate = .open_ path) ∨ Refused n ty t' fate) ∧ Intact t t' :=
  recv_refused hc ⟨ht, htg, hk⟩ hr hb hf

/-! ### After enumeration -/

section
variable {ops : CapOps σ} {fuel : Nat} {host : BrFn σ} {ports : Ports σ} {rs : List Region} {n : Node σ} {l : Limits}
  (hR : AfterReset host ports rs) (hd : depth ports.bus < fuel) (he : enumerateAll ops fuel host ports = .ok (n, l)) (hl : Fits l)
include hR hd he hl

/-- C54: `enumerate` sets up every hierarchy for completions and for all addresses which a 32-bit BAR cannot mistake for its
own; and it leaves at most one function with a given ID or at a given address. -/
theorem C54_enumerated {tg : Target} (hs : Sound tg) : Configured tg n ∧
    ∀ p k f q k' g, FnAt n p k f → FnAt n q k' g → EpFn.For f tg → EpFn.For g tg → p = q ∧ k = k' := by
  obtain ⟨h', p', rfl, R⟩ := enumerateAll_ready hR hd he hl
  have := ready_conf R hs
  exact ⟨this, fun p k f q k' g hf hg h1 h2 => conf_unique hf this hg h1 h2⟩

/-- C54: after `enumerate` the BARs of every function stand for windows; the function decodes every address of a window, with
the BAR of the window and the offset in it, and the address is not for the root complex. Missing: more than 3 GiB of
prefetchable memory (see `C54_alias_violated`). -/
theorem C54_windows_partial {path : List Nat} {k : Nat} {f : EpFn σ} (hf : FnAt n path k f) :
    ∃ ws r, FnRes 6 f.toCommon ws r ∧ ∀ w ∈ ws, ∀ a, w.contains a = true →
      matchBar f.bars a w.io = .ok (some (w.idx, a - w.base)) ∧ EpFn.For f (if w.io then .io a else .mem a) ∧
      Sound (if w.io then .io a else .mem a) ∧ ¬ ForRoot l (if w.io then .io a else .mem a) := by
  obtain ⟨h', p', rfl, R⟩ := enumerateAll_ready hR hd he hl
  obtain ⟨ws, r, h1, h2⟩ := ready_windows R hl hf
  refine ⟨ws, r, h1, fun w hw a hc => ?_⟩
  obtain ⟨m, s, t⟩ := h2 w hw a hc
  refine ⟨m, ?_, s, t⟩
  cases e : w.io <;> rw [e] at m <;> exact ⟨_, m⟩

/-- C54: after `enumerate`, a request of the root complex to an address of a function, and a completion with its ID, get to
that function, through all switches on the way, and unchanged. -/
theorem C54_reach {path : List Nat} {k : Nat} {f : EpFn σ} {t : Tlp} {ty : TlpType} {tg : Target} (hf : FnAt n path k f)
    (ht : t.fmtType = some ty) (htg : target t ty = some tg) (hk : t.check = .ok true) (hs : Sound tg) (hfor : EpFn.For f tg)
    (hp : Prepared f.handlers ty t) : ∃ t' es, n.recv t = .ok (.fn path k es) ∧ Taken ty t' es ∧ Intact t t' := by
  obtain ⟨h', p', rfl, R⟩ := enumerateAll_ready hR hd he hl
  exact recv_spec hf (ready_conf R hs) ⟨ht, htg, hk⟩ (sound_routed hs) hfor (ready_br R hf hs hfor) hp

/-- C54: a configuration request of the root complex for the ID of a function gets to that function, as a type 0 request with
the same content. -/
theorem C54_config {path : List Nat} {k : Nat} {f : EpFn σ} {t : Tlp} (hf : FnAt n path k f) (hk : t.check = .ok true)
    (hid : t.completer_id = f.id) :
    (t.fmtType = some .CFG_READ_1 → .CFG_READ_0 ∈ f.handlers →
      ∃ t', n.recv t = .ok (.fn path k [.release, .handler t']) ∧ t'.fmtType = some .CFG_READ_0 ∧
        t' = { t with fmt := t'.fmt, type := t'.type, th := t'.th }) ∧
    (t.fmtType = some .CFG_WRITE_1 → .CFG_WRITE_0 ∈ f.handlers →
      ∃ t', n.recv t = .ok (.fn path k [.release, .handler t']) ∧ t'.fmtType = some .CFG_WRITE_0 ∧
        t' = { t with fmt := t'.fmt, type := t'.type, th := t'.th }) := by
  obtain ⟨h', p', rfl, R⟩ := enumerateAll_ready hR hd he hl
  refine ⟨fun ht hh => ?_, fun ht hh => ?_⟩
  · obtain ⟨t', e, c⟩ := ready_cfg R hf (wr := false) ht hk hid hh
    exact ⟨t', e, c.typ, c.same⟩
  · obtain ⟨t', e, c⟩ := ready_cfg R hf (wr := true) ht hk hid hh
    exact ⟨t', e, c.typ, c.same⟩

/-- C54: after `enumerate`, a request of a function to an address outside the ranges of the host bridge, and a completion for
the root complex, get to the root complex, from wherever in the hierarchy, and unchanged. Missing: the first address behind
each range, which `enumerate` leaves in the ranges (see `C54_host_limit_violated`). -/
theorem C54_to_root_partial {path : List Nat} {k : Nat} {f : EpFn σ} {t : Tlp} {ty : TlpType} {tg : Target} (hf : FnAt n path k f)
    (ht : t.fmtType = some ty) (htg : target t ty = some tg) (hk : t.check = .ok true) (hs : Sound tg) (hr : ForRoot l tg) :
    ∃ t', n.send path t = .ok (.exit t') ∧ Intact t t' := by
  obtain ⟨h', p', rfl, R⟩ := enumerateAll_ready hR hd he hl
  obtain ⟨m, hm, -⟩ := fnAt_node hf
  exact ready_to_rc R hs hr hm ⟨ht, htg, hk⟩ rfl

/-- C54: after `enumerate`, functions of different devices reach each other, by address and with completions. -/
theorem C54_enumerated_peer {p q : List Nat} {k k' : Nat} {f g : EpFn σ} {t : Tlp} {ty : TlpType} {tg : Target} (hf : FnAt n p k f)
    (hg : FnAt n q k' g) (hpq : p ≠ q) (ht : t.fmtType = some ty) (htg : target t ty = some tg) (hk : t.check = .ok true) (hs : Sound tg)
    (hfor : EpFn.For g tg) (hp : Prepared g.handlers ty t) :
    ∃ t' es, n.send p t = .ok (.fn q k' es) ∧ Taken ty t' es ∧ Intact t t' := by
  obtain ⟨h', p', rfl, R⟩ := enumerateAll_ready hR hd he hl
  exact C54_peer hf hg hpq (ready_conf R hs) ht htg hk (sound_routed hs) hfor (ready_br R hg hs hfor) hp

/-- C54: after `enumerate`, a request of the root complex that is for nobody is not delivered; if it needs an answer, the
root complex gets exactly one, an unsupported request completion, unless the request ends at a port without a link. -/
theorem C54_enumerated_unclaimed {t : Tlp} {ty : TlpType} {tg : Target} (ht : t.fmtType = some ty) (htg : target t ty = some tg)
    (hk : t.check = .ok true) (hs : Sound tg) (hb : ∀ b, BrIn n b → ¬ ForFn b.id b.bars tg)
    (hf : ∀ path k f, FnAt n path k f → ¬ EpFn.For f tg) (hrc : t.requester_id = ⟨0, 0, 0⟩) :
    ∃ fate t', n.recv t = .ok fate ∧ Intact t t' ∧ ((∃ path, fate = .open_ path) ∨ (Refused n ty t' fate ∧
      (NonPosted ty = true → ∃ id c c', answer n fate = some (.ok (.exit c')) ∧ IsUr c t' id ∧ Intact c c'))) := by
  obtain ⟨h', p', rfl, R⟩ := enumerateAll_ready hR hd he hl
  obtain ⟨fate, t', e, h, hi⟩ := C54_unclaimed (ready_conf R hs) ht htg hk (sound_routed hs) hb hf
  refine ⟨fate, t', e, hi, h.imp_right fun h => ⟨h, fun hnp => ready_answer R hnp ?_ h⟩⟩
  rcases hi with rfl | rfl <;> exact hrc

end

/-! ### A hierarchy (`Lemmas/HierEx.lean`) -/

/-- A read of one dword. -/
private def exRead (a : Nat) (req : PcieId) : Tlp :=
  ({ address := a, length := 1, first_be := 0xf, tag := 5, requester_id := req } : Tlp).setFmtType .MEM_READ_64

/-- A read by the root complex of a BAR two switches down; a read by that function of host memory; and a read by that
function of the prefetchable memory of the other device. -/
example : ∃ n, enumerateAll noCaps 5 exHost exPorts = .ok (n, exLim) ∧
    (∃ t' es, n.recv (exRead 0xc0001004 ⟨0, 0, 0⟩) = .ok (.fn [0, 0] 1 es) ∧ Taken .MEM_READ_64 t' es) ∧
    (∃ t', n.send [0, 0] (exRead 0x1000 ⟨3, 0, 1⟩) = .ok (.exit t')) ∧
    (∃ t' es, n.send [0, 0] (exRead 0x8000000000200010 ⟨3, 0, 1⟩) = .ok (.fn [0, 2] 0 es) ∧ Taken .MEM_READ_64 t' es) := by
  obtain ⟨n, f, g, e, hf, hg, h1, h2, h3, h4, h5, h6, -⟩ := exRun
  have hd : depth exPorts.bus < 5 := by decide
  refine ⟨n, e, ?_, ?_, ?_⟩
  · have k : (exRead 0xc0001004 ⟨0, 0, 0⟩).fmtType = some .MEM_READ_64 ∧ target (exRead 0xc0001004 ⟨0, 0, 0⟩) .MEM_READ_64 = some (.mem 0xc0001004) ∧
        (exRead 0xc0001004 ⟨0, 0, 0⟩).check = .ok true := ⟨by decide, rfl, rfl⟩
    obtain ⟨t', es, a, b, -⟩ := C54_reach exPorts_reset hd e exFits hf k.1 k.2.1 k.2.2 (.inl (by decide)) ⟨_, h3⟩
      (by rw [Prepared, h2]; decide)
    exact ⟨t', es, a, b⟩
  · have k : (exRead 0x1000 ⟨3, 0, 1⟩).fmtType = some .MEM_READ_64 ∧ target (exRead 0x1000 ⟨3, 0, 1⟩) .MEM_READ_64 = some (.mem 0x1000) ∧
        (exRead 0x1000 ⟨3, 0, 1⟩).check = .ok true := ⟨by decide, rfl, rfl⟩
    obtain ⟨t', a, -⟩ := C54_to_root_partial exPorts_reset hd e exFits hf k.1 k.2.1 k.2.2 (.inl (by decide)) ⟨.inl (by decide), .inl (by decide)⟩
    exact ⟨t', a⟩
  · have k : (exRead 0x8000000000200010 ⟨3, 0, 1⟩).fmtType = some .MEM_READ_64 ∧ target (exRead 0x8000000000200010 ⟨3, 0, 1⟩) .MEM_READ_64 = some (.mem 0x8000000000200010) ∧
        (exRead 0x8000000000200010 ⟨3, 0, 1⟩).check = .ok true := ⟨by decide, rfl, rfl⟩
    obtain ⟨t', es, a, b, -⟩ := C54_enumerated_peer exPorts_reset hd e exFits hf hg (by decide) k.1 k.2.1 k.2.2
      (.inr ⟨by decide, by decide⟩) ⟨_, h6⟩ (by rw [Prepared, h5]; decide)
    exact ⟨t', es, a, b⟩

/-- A configuration read of the same function, and completions for it and from it. -/
example : ∃ n, enumerateAll noCaps 5 exHost exPorts = .ok (n, exLim) ∧
    (∃ t', n.recv (({ completer_id := ⟨3, 0, 1⟩, length := 1, first_be := 0xf } : Tlp).setFmtType .CFG_READ_1) =
      .ok (.fn [0, 0] 1 [.release, .handler t'])) ∧
    (∃ t' es, n.recv (({ requester_id := ⟨3, 0, 1⟩ } : Tlp).setFmtType .CPL) = .ok (.fn [0, 0] 1 es) ∧ Taken .CPL t' es) ∧
    (∃ t', n.send [0, 0] (({ requester_id := ⟨0, 0, 0⟩ } : Tlp).setFmtType .CPL) = .ok (.exit t')) := by
  obtain ⟨n, f, g, e, hf, hg, h1, h2, h3, -⟩ := exRun
  have hd : depth exPorts.bus < 5 := by decide
  refine ⟨n, e, ?_, ?_, ?_⟩
  · obtain ⟨t', a, -⟩ := (C54_config (t := ({ completer_id := ⟨3, 0, 1⟩, length := 1, first_be := 0xf } : Tlp).setFmtType .CFG_READ_1)
      exPorts_reset hd e exFits hf rfl (by rw [h1]; rfl)).1 (by decide) (by rw [h2]; decide)
    exact ⟨t', a⟩
  · obtain ⟨t', es, a, b, -⟩ := C54_reach (t := ({ requester_id := ⟨3, 0, 1⟩ } : Tlp).setFmtType .CPL) (tg := .cpl ⟨3, 0, 1⟩) (ty := .CPL)
      exPorts_reset hd e exFits hf (by decide) rfl rfl trivial h1.symm
      (show (0 : Nat) < 256 by decide)
    exact ⟨t', es, a, b⟩
  · obtain ⟨t', a, -⟩ := C54_to_root_partial (tg := .cpl ⟨0, 0, 0⟩) (ty := .CPL) (t := ({ requester_id := ⟨0, 0, 0⟩ } : Tlp).setFmtType .CPL)
      exPorts_reset hd e exFits hf (by decide) rfl rfl trivial rfl
    exact ⟨t', a⟩

/-- The functions of one device: the port above answers. -/
example : (enumerateAll noCaps 5 exHost exPorts).toOption.any (fun p =>
    match p.1.send [0, 0] (exRead 0xc0001004 ⟨3, 0, 0⟩) with
    | .ok (.port [0] 0 [.release, .down cpl]) => cpl.status = 1 ∧ cpl.requester_id = ⟨3, 0, 0⟩
    | _ => false) = true := by decide +kernel

/-- An address behind the second device, and one behind the port without a link, which has no range: the switch answers, and
the answer gets back. -/
example : (enumerateAll noCaps 5 exHost exPorts).toOption.any (fun p =>
    match p.1.recv (exRead 0xc0180000 ⟨0, 0, 0⟩) with
    | .ok (.dev [0, 2] es) => match answer p.1 (.dev [0, 2] es) with
      | some (.ok (.exit c)) => c.status = 1
      | _ => false
    | _ => false) = true := by decide +kernel

/-! ### What goes wrong -/

/-- C54: `enumerate` writes the first address behind the ranges of the host bridge to its limit registers, which hold the last
address of the ranges. A request of a function to this address, which no function has, does not get to the root complex. -/
theorem C54_host_limit_violated : ∃ (host : BrFn Unit) (ports : Ports Unit) (rs : List Region) (n : Node Unit) (l : Limits),
    AfterReset host ports rs ∧ depth ports.bus < 5 ∧ enumerateAll noCaps 5 host ports = .ok (n, l) ∧ Fits l ∧
    (∃ f, FnAt n [0, 0] 1 f) ∧ ∃ id cpl, IsUr cpl (exRead l.mem ⟨3, 0, 1⟩) id ∧
    n.send [0, 0] (exRead l.mem ⟨3, 0, 1⟩) = .ok (.refused [] 1 [cpl]) := by
  obtain ⟨n, f, e, h, hq⟩ := run_get (x := enumerateAll noCaps 5 exHost exPorts) (l := exLim) (g := fun n => fnOf n [0, 0] 1)
    (q := fun _ => (enumerateAll noCaps 5 exHost exPorts).toOption.bind (fun p =>
      (p.1.send [0, 0] (exRead exLim.mem ⟨3, 0, 1⟩)).toOption) = some (.refused [] 1 [(exRead exLim.mem ⟨3, 0, 1⟩).createUr ⟨0, 1, 0⟩]))
    (by decide +kernel) (by decide +kernel)
  refine ⟨exHost, exPorts, exRegs, n, exLim, exPorts_reset, by decide, e, exFits, ⟨f, fnOf_at _ _ _ _ h⟩, ⟨0, 1, 0⟩, _,
    createUr_isUr _ _, ?_⟩
  rw [e] at hq
  simp only [Except.toOption, Option.bind_some] at hq
  split at hq
  · next v hv => cases hq; exact hv
  · cases hq

/-- A device with 4 KiB of memory at function 0 and two BARs of 2 GiB of prefetchable memory at function 1. -/
private def exBig (k : Nat) (bars : List BarReg) : EpFn Unit := { caps := (), multifunction := true, id := ⟨0, 0, k⟩, bars := bars }
@[inherit_doc exBig] private def exBigs : Ports Unit :=
  .cons (exPort 1) (.dev 0 [exBig 0 [⟨0, 0xfffff000⟩, {}, {}, {}, {}, {}],
    exBig 1 [⟨0xc, 0x80000000⟩, ⟨0, 0xffffffff⟩, ⟨0xc, 0x80000000⟩, ⟨0, 0xffffffff⟩, {}, {}]]) .nil

private theorem exBigs_reset : ∃ rs, AfterReset exHost exBigs rs := by
  have tree : ∃ rs, Tree Any exBigs.bus.bus rs ∧ ∀ x ∈ rs, x.size < 2 ^ 32 := by
    refine ⟨_, .br _ _ _ _ _ _ _ _ (exPort_res 1) trivial (.ep _ _ [⟨0, false, false, 0, 12⟩] none _ _ ⟨?_, rfl, rfl, rfl⟩ trivial
      (.ep _ _ [⟨0, false, true, 0, 31⟩, ⟨2, false, true, 0, 31⟩] none _ _ ⟨?_, rfl, rfl, rfl⟩ trivial .nil)) .nil, by decide⟩
    · exact .mem32 _ _ _ _ _ _ (by decide) (.absent _ _ _ _ rfl (.absent _ _ _ _ rfl (.absent _ _ _ _ rfl (.absent _ _ _ _ rfl
        (.absent _ _ _ _ rfl (.nil _))))))
    · exact .mem64 _ _ _ _ _ _ _ (by decide) (.mem64 _ _ _ _ _ _ _ (by decide) (.absent _ _ _ _ rfl (.absent _ _ _ _ rfl (.nil _))))
  obtain ⟨rs, tree, small⟩ := tree
  refine ⟨rs, ?_, ?_, ?_, tree, small, ?_, ?_, rfl, rfl, ⟨rfl, rfl⟩, ?_⟩
  · constructor <;> simp [exBigs, exPort, exBig, Ports.bus, Node.bus, top, Before, HeaderOk, idDword, Spec.multi]
  · refine ⟨?_, trivial, trivial⟩
    constructor <;> simp [exBig, Node.bus, top, Before, HeaderOk, idDword, Spec.multi]
  · simp [exBigs, exPort, exBig, Ports.bus, Node.bus, NoNumbers]
  · simp [exBigs, exPort, exBig, Ports.bus, Node.bus, Phys.bus, BrsClean]
    constructor <;> decide
  · intro x hx
    simp only [exBigs, Ports.list, List.mem_cons, List.not_mem_nil, or_false] at hx
    subst hx
    exact ⟨rfl, fun b hb => by cases hb⟩
  · simp [exHost]

/-- C54: with more prefetchable memory, an address of a 64-bit BAR can have the lower half of an address of a 32-bit BAR of
another function of the device; the request then gets to the wrong function. -/
theorem C54_alias_violated : ∃ (host : BrFn Unit) (ports : Ports Unit) (rs : List Region) (n : Node Unit) (l : Limits),
    AfterReset host ports rs ∧ depth ports.bus < 5 ∧ enumerateAll noCaps 5 host ports = .ok (n, l) ∧ l.mem < 2 ^ 32 ∧ l.pref ≤ 2 ^ 64 ∧
    (∃ f ws w, FnAt n [0] 1 f ∧ FnRes 6 f.toCommon ws none ∧ w ∈ ws ∧ w.io = false ∧ w.contains 0x80000000c0000010 = true) ∧
    ∃ es, n.recv (exRead 0x80000000c0000010 ⟨0, 0, 0⟩) = .ok (.fn [0] 0 es) := by
  obtain ⟨rs, hrs⟩ := exBigs_reset
  obtain ⟨n, f, e, h, hq, h1, h2, h3⟩ := run_get (x := enumerateAll noCaps 5 exHost exBigs) (l := ⟨0x80000000, 0xc0100000, 0x8000000100000000⟩)
    (g := fun n => fnOf n [0] 1)
    (q := fun f => ((enumerateAll noCaps 5 exHost exBigs).toOption.any (fun p =>
      match p.1.recv (exRead 0x80000000c0000010 ⟨0, 0, 0⟩) with
      | .ok (.fn [0] 0 _) => true
      | _ => false)) = true ∧ f.romMask = 0 ∧ f.romAddr = 0 ∧
      f.bars = [⟨0xc, 0x80000000⟩, ⟨0x80000000, 0xffffffff⟩, ⟨0x8000000c, 0x80000000⟩, ⟨0x80000000, 0xffffffff⟩, {}, {}])
    (by decide +kernel) (by decide +kernel)
  refine ⟨exHost, exBigs, rs, n, _, hrs, by decide, e, by decide, by decide, ⟨f,
    [⟨0, false, true, 0x8000000000000000, 31⟩, ⟨2, false, true, 0x8000000080000000, 31⟩], ⟨2, false, true, 0x8000000080000000, 31⟩,
    fnOf_at _ _ _ _ h, ⟨?_, by rw [h3]; rfl, h1, h2⟩, by decide, rfl, by decide⟩, ?_⟩
  · rw [h3]
    exact .mem64 _ _ _ _ _ _ _ (by decide) (.mem64 _ _ _ _ _ _ _ (by decide) (.absent _ _ _ _ rfl (.absent _ _ _ _ rfl (.nil _))))
  · rw [e] at hq
    simp only [Except.toOption, Option.any_some] at hq
    split at hq
    · next v hv => exact ⟨v, hv⟩
    · cases hq

end Pcie
