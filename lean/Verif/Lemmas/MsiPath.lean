/- Lemmas about interrupts on their way to the root complex. -/
import Verif.Model.MsiPath
import Verif.Lemmas.EndToEnd
import Verif.Lemmas.CfgFabricScan
namespace Pcie
open Spec
variable {σ : Type}

/-! ### What leaves the hierarchy is what was sent -/

theorem handleTlp_no_up (hs : List TlpType) (t t' : Tlp) : handleTlp hs t ≠ .ok [.up t'] := by
  unfold handleTlp
  intro h
  split at h
  · cases h
  · split at h
    · split at h <;> cases h
    · split at h <;> cases h

theorem downstreamRecv_up {b b' : BrFn σ} {t t' : Tlp} (h : b.downstreamRecv t = .ok (b', [.up t'])) : t' = t := by
  unfold BrFn.downstreamRecv at h
  split at h
  · cases h
  simp only at h
  generalize (if b.brParityResp = true ∧ t.ep = true then ({ b with secMasterParity := true } : BrFn σ) else b) = b1 at h
  generalize (if t.isCompletion = true ∧ t.status = CplStatus.CA then ({ b1 with secRcvTargetAbort := true } : BrFn σ) else
    if t.isCompletion = true ∧ t.status = CplStatus.UR then { b1 with secRcvMasterAbort := true } else b1) = b2 at h
  split at h
  · cases h
  · cases he : handleTlp b2.handlers t with
    | error e => rw [he] at h; cases h
    | ok es =>
      rw [he] at h
      cases h
      exact absurd he (handleTlp_no_up _ _ _)
  · split at h
    · cases h
    · split at h
      · unfold BrFn.upstreamSend at h
        cases hc : assertCheck t with
        | error e => rw [hc] at h; cases h
        | ok u => rw [hc] at h; cases h; rfl
      · cases ha : answerUr t with
        | error e => rw [ha] at h; cases h
        | ok r =>
          rw [ha] at h
          cases r with
          | false => cases h
          | true =>
            simp only at h
            cases hd : b1.downstreamSend (t.createUr b1.id) with
            | error e => rw [hd] at h; cases h
            | ok p => rw [hd] at h; cases h

mutual
theorem recv_no_exit : ∀ (n : Node σ) (t t' : Tlp), n.recv t ≠ .ok (.exit t')
  | .none, t, t', h => by rw [Node.recv] at h; cases h
  | .dev bus fns, t, t', h => by
    rw [Node.recv] at h
    split at h <;> cases h
  | .sw up ports, t, t', h => by
    rw [Node.recv] at h
    split at h
    · cases h
    · split at h
      · cases h
      · exact ports_recv_no_exit ports _ _ _ t' h
      · cases h
    · cases h
theorem ports_recv_no_exit : ∀ (p : Ports σ) (i j : Nat) (t t' : Tlp), p.recv i j t ≠ .ok (.exit t')
  | .nil, i, j, t, t', h => by rw [Ports.recv] at h; cases h
  | .cons b n rest, i, 0, t, t', h => by
    rw [Ports.recv] at h
    split at h
    · cases h
    · split at h
      · cases h
      · next f hf =>
        cases f with
        | exit u => exact recv_no_exit n _ _ hf
        | _ => cases h
    · cases h
  | .cons b n rest, i, j + 1, t, t', h => by
    rw [Ports.recv] at h
    exact ports_recv_no_exit rest _ _ _ _ h
end

theorem fromPort_same {up : BrFn σ} {ports : Ports σ} {j : Nat} {t t' : Tlp} (h : fromPort up ports j t = .ok (.exit t')) : t' = t := by
  unfold fromPort at h
  split at h
  · cases h
  · split at h
    · cases h
    · next e => cases h; exact downstreamRecv_up e
    · cases h
  · exact absurd h (ports_recv_no_exit _ _ _ _ _)
  · cases h

theorem copy_intact {t u t' : Tlp} (h : Intact t u) (h' : t' = u.copy) : Intact t t' := by
  subst h'
  unfold Tlp.copy
  rcases h with rfl | rfl
  · exact .inr rfl
  · exact .inr rfl

theorem send_exit : ∀ (path : List Nat) (n : Node σ) (t t' : Tlp), n.send path t = .ok (.exit t') → Intact t t'
  | [], n, t, t', h => by
    unfold Node.send at h; rw [Node.rise] at h; cases h; exact .inl rfl
  | j :: path, .none, t, t', h => by unfold Node.send at h; rw [Node.rise] at h; cases h; all_goals simp
  | j :: path, .dev _ _, t, t', h => by unfold Node.send at h; rw [Node.rise] at h; cases h; all_goals simp
  | j :: path, .sw up ports, t, t', h => by
    unfold Node.send at h
    rw [Node.rise] at h
    split at h
    · cases h
    · next b n e =>
      split at h
      · cases h
      · next u hu =>
        have hu' := send_exit path n t u hu
        split at h
        · cases h
        · next e2 =>
          have := fromPort_same h
          rw [this]
          exact copy_intact hu' (downstreamRecv_up e2)
        · cases h
      · next f hne hf =>
        cases f with
        | exit u => exact absurd rfl (hne u)
        | _ => cases h

/-! ### The message of an interrupt -/

namespace IrqNet

theorem write_one (c : ReqCfg) (attr tc : Nat) (d : List UInt8) (hd : d.length = 4) (hbm : c.busMasterEnable = true) :
    Region.write c 0x80000000 d attr tc = .ok [Region.writeTlp c attr tc false 0x80000000 d] := by
  have hl : Region.writeLen c 0x80000000 4 = 4 := by
    unfold Region.writeLen
    have h2 : 128 ≤ 128 <<< c.mps := by
      rw [Nat.shiftLeft_eq]; exact Nat.le_mul_of_pos_right _ (Nat.two_pow_pos _)
    simp only [show 0x80000000 &&& 0xfff = 0 from rfl]
    omega
  unfold Region.write
  have h0 : ¬ d.length = 0 := by omega
  simp only [hbm, not_true_eq_false, if_false, h0, decide_false]
  have hnil : ∀ a, Region.writeLoop c attr tc false d 4 a = [] := by
    intro a; rw [Region.writeLoop, dif_neg (by omega)]
  rw [Region.writeLoop, dif_pos (by omega)]
  simp only [hd, Nat.sub_zero, hl, Nat.zero_add, hnil]
  have : slice d 0 4 = d := by unfold slice; rw [List.take_of_length_le (by omega)]; rfl
  rw [this]

theorem setAddrBeData_message (T : Tlp) (p q r s : UInt8) : T.setAddrBeData 0x80000000 [p, q, r, s] =
    { T with address := 0x80000000, length := 1, first_be := 15, last_be := 0, data := [p, q, r, s] } := by
  have h1 : andNot 0x80000000 3 = 0x80000000 := by decide
  unfold Tlp.setAddrBeData Tlp.setAddrBe
  simp [h1]

theorem message_tlp (c : ReqCfg) (attr tc : Nat) (d : List UInt8) (hd : d.length = 4) :
    let t := Region.writeTlp c attr tc false 0x80000000 d
    t.address = 0x80000000 ∧ t.length = 1 ∧ t.data = d ∧ memRuns t = [(0, 4)] := by
  match d, hd with
  | [p, q, r, s], _ =>
    unfold Region.writeTlp
    simp only [setAddrBeData_message, Bool.false_eq_true, if_false, true_and, gt_iff_lt, Nat.reduceLT]
    unfold memRuns
    simp only
    decide

theorem rootWrite_message {x : IrqNet σ} {t : Tlp} (hb : x.irq.region.base = 0x80000000) (h1 : t.address = 0x80000000) (h2 : t.length = 1)
    (h3 : memRuns t = [(0, 4)]) {v : Nat} (hd : t.data.length = 4) (hv : Cfg.unpackLE t.data = .ok v) {hs : List Nat}
    (h : x.irq.deliver (0x80000000, v) = .ok hs) : x.rootWrite t = (x, hs) := by
  unfold rootWrite covers
  rw [h1, h2, h3, hb]
  simp only [Nat.reduceMul, Nat.reduceAdd, Nat.reduceLT, and_self, decide_true, Bool.or_true, not_true_eq_false, if_false]
  rw [if_neg (by decide)]
  have hs' : slice t.data 0 4 = t.data := by unfold slice; rw [List.take_of_length_le (by omega)]; rfl
  have : x.put 0x80000000 t.data = .ok (x, hs) := by
    unfold put
    rw [hb, if_pos (by decide), if_neg (by omega), hv]
    simp only [bind, Except.bind, h]
  simp only [puts, Nat.add_zero, hs', this, List.nil_append]

theorem message {x : IrqNet σ} {l : Limits} {f : Nat} (C : CarriesUp x.sys.net l (x.place f).1 (x.place f).2 (x.cfg f).id)
    (hbm : (x.cfg f).busMasterEnable = true) (hb : x.irq.region.base = 0x80000000) {m : Nat × Nat} {hs : List Nat} (hm : m.2 < 2 ^ 32)
    (h : x.irq.deliver m = .ok hs) (attr tc : Nat) :
    ∃ d, Cfg.packLE m.2 = .ok d ∧ x.memWrite f m.1 d attr tc = .ok (x, hs) := by
  obtain ⟨a, v⟩ := m
  have ha : a = 0x80000000 := by
    unfold IrqSys.deliver MsiRegion.write at h
    rw [hb] at h
    split at h
    · cases h
    · split at h
      · cases h
      · simp only at *; omega
  subst ha
  obtain ⟨d, p1, p2, p3⟩ := pack_unpack hm
  refine ⟨d, p1, ?_⟩
  unfold memWrite
  rw [write_one _ _ _ _ p2 hbm]
  obtain ⟨t1, t2, t3, t4⟩ := message_tlp (x.cfg f) attr tc d p2
  obtain ⟨f1, f2, f3, f4, f5, f6, f7, f8, f9, f10⟩ := Region.writeTlp_fields (x.cfg f) attr tc false 0x80000000 d (by omega)
  have hok := Region.writeTlp_ok (x.cfg f) attr tc false 0x80000000 d (by omega)
    (by have h2 : 128 ≤ 128 <<< (x.cfg f).mps := by rw [Nat.shiftLeft_eq]; exact Nat.le_mul_of_pos_right _ (Nat.two_pow_pos _)
        omega) (by omega)
  generalize Region.writeTlp (x.cfg f) attr tc false 0x80000000 d = t at *
  rw [if_neg (by decide)] at f5
  have e : Sys.emit x.sys.net (.fn (x.place f).1 (x.place f).2) t = .ok (.exit t) :=
    C.to t .MEM_WRITE (.mem 0x80000000) f5 (by simp [target, t1]) hok.check f10 (.inl (by decide)) ⟨.inl (by decide), .inl (by decide)⟩
  have hr : x.request f t = .ok (x, hs) := by
    unfold request
    rw [e]
    simp only [bind, Except.bind, f5]
    rw [rootWrite_message hb t1 t2 t4 (by rw [t3]; exact p2) (by rw [t3]; exact p3) h]
  simp only [bind, Except.bind, List.foldlM_cons, List.foldlM_nil, hr, pure, Except.pure, List.nil_append]

/-! ### Other writes -/

theorem puts_quiet (base : Nat) (data : List UInt8) : ∀ (runs : List (Nat × Nat)) (x : IrqNet σ) (hs : List Nat),
    (∀ r ∈ runs, ¬ (x.irq.region.base ≤ base + r.1 ∧ base + r.1 < x.irq.region.base + 16)) →
    puts base data runs x hs = ({ x with sys := { x.sys with mem := (Rc.applyRuns base data runs x.sys.mem).1 } }, hs)
  | [], x, hs, _ => rfl
  | (a, b) :: rest, x, hs, h => by
    have h0 := h (a, b) List.mem_cons_self
    rw [puts, Rc.applyRuns]
    unfold put
    rw [if_neg h0]
    cases hw : x.sys.mem.write (base + a) (slice data a b) with
    | error e => rfl
    | ok m =>
      simp only [bind, Except.bind, List.append_nil]
      exact puts_quiet base data rest { x with sys := { x.sys with mem := m } } hs fun r hr => h r (List.mem_cons_of_mem _ hr)

theorem rootWrite_quiet {x : IrqNet σ} {c : ReqCfg} {attr tc a : Nat} {ch : List UInt8} (hb : x.irq.region.base = 0x80000000) (h0 : 0 < ch.length)
    (hq : a + ch.length ≤ 0x80000000 ∨ 0x80000010 ≤ a) :
    x.rootWrite (Region.writeTlp c attr tc false a ch) =
      ({ x with sys := { x.sys with mem := Rc.handleMemWrite x.sys.mem (Region.writeTlp c attr tc false a ch) } }, []) := by
  obtain ⟨f1, f2, f3, -⟩ := Region.writeTlp_fields c attr tc false a ch h0
  have hen := Region.writeTlp_enabled c attr tc a ch
  generalize Region.writeTlp c attr tc false a ch = t at *
  obtain ⟨r1, r2⟩ := memRuns_spec t (by omega)
  have hcov : x.covers t.address (t.length * 4) = x.sys.mem.covers t.address (t.length * 4) := by
    unfold covers
    have : ¬ (t.address < x.irq.region.base + 16 ∧ x.irq.region.base < t.address + t.length * 4) := by
      rw [f1, f2, hb]; omega
    simp only [this, decide_false, Bool.or_false]
  unfold rootWrite Rc.handleMemWrite
  rw [hcov]
  by_cases hc : x.sys.mem.covers t.address (t.length * 4) = true
  · simp only [hc, not_true_eq_false, if_false]
    by_cases h4 : t.length * 4 > 0x1000 - (t.address &&& 0xfff)
    · simp only [h4, if_true]
    · simp only [h4, if_false]
      exact puts_quiet _ _ _ _ _ fun r hr => by
        have hr2 := r2 r hr
        have := (hen (t.address + r.1)).1 ((r1 r.1).1 ⟨r, hr, Nat.le_refl _, hr2.1⟩)
        rw [hb]; omega
  · rw [if_pos hc, if_pos hc]

/-- One request of a write elsewhere. -/
theorem request_quiet {x : IrqNet σ} {f : Nat} {c : ReqCfg} {attr tc a : Nat} {ch : List UInt8} (hb : x.irq.region.base = 0x80000000) (h0 : 0 < ch.length)
    (hq : a + ch.length ≤ 0x80000000 ∨ 0x80000010 ≤ a) :
    x.request f (Region.writeTlp c attr tc false a ch) = (do
      let p ← x.sys.request (.fn (x.place f).1 (x.place f).2) (Region.writeTlp c attr tc false a ch)
      .ok ({ x with sys := p.1 }, [])) := by
  obtain ⟨-, -, -, -, f5, -, -, -, -, f10⟩ := Region.writeTlp_fields c attr tc false a ch h0
  have hr := rootWrite_quiet (x := x) (c := c) (attr := attr) (tc := tc) hb h0 hq
  generalize Region.writeTlp c attr tc false a ch = t at *
  unfold request Sys.request
  cases he : Sys.emit x.sys.net (.fn (x.place f).1 (x.place f).2) t with
  | error e => rfl
  | ok fate =>
    simp only [bind, Except.bind]
    cases fate with
    | exit t' =>
      have ht : t' = t := intact_eq' (send_exit _ _ _ _ he) f10
      subst ht
      have hg := Sys.rootGets_memWrite (s := x.sys) f5
      simp only [Sys.settle, hg, bind, Except.bind]
      have : ∃ ty, t'.fmtType = some ty ∧ (ty = .MEM_WRITE ∨ ty = .MEM_WRITE_64) := by
        refine ⟨_, f5, ?_⟩; split <;> simp
      obtain ⟨ty, h1, h2 | h2⟩ := this <;> subst h2 <;> simp only [h1, hr]
    | _ =>
      simp only
      generalize x.sys.settle _ = r
      cases r <;> rfl

theorem requests_quiet {f : Nat} {c : ReqCfg} {attr tc : Nat} (ts : List Tlp) : ∀ (x : IrqNet σ), x.irq.region.base = 0x80000000 →
    (∀ t ∈ ts, ∃ a ch, t = Region.writeTlp c attr tc false a ch ∧ 0 < ch.length ∧ (a + ch.length ≤ 0x80000000 ∨ 0x80000010 ≤ a)) →
    ts.foldlM (fun (p : IrqNet σ × List Nat) t => do
      let (y, h) ← p.1.request f t
      (.ok (y, p.2 ++ h) : Py (IrqNet σ × List Nat))) (x, []) =
    (do let s ← ts.foldlM (fun s t => do (.ok (← s.request (.fn (x.place f).1 (x.place f).2) t).1 : Py (Sys σ))) x.sys
        .ok ({ x with sys := s }, [])) := by
  induction ts with
  | nil => intro x _ _; rfl
  | cons t ts ih =>
    intro x hb h
    obtain ⟨a, ch, e, h0, hq⟩ := h t List.mem_cons_self
    have hr := request_quiet (x := x) (f := f) (c := c) (attr := attr) (tc := tc) hb h0 hq
    rw [← e] at hr
    simp only [List.foldlM_cons, hr]
    cases hs : x.sys.request (.fn (x.place f).1 (x.place f).2) t with
    | error e => rfl
    | ok p =>
      simp only [bind, Except.bind, List.append_nil]
      exact ih { x with sys := p.1 } hb fun t ht => h t (List.mem_cons_of_mem _ ht)

theorem memWrite_quiet {x : IrqNet σ} (hb : x.irq.region.base = 0x80000000) (f addr : Nat) {data : List UInt8} (h0 : data ≠ []) (attr tc : Nat)
    (hq : addr + data.length ≤ 0x80000000 ∨ 0x80000010 ≤ addr) :
    x.memWrite f addr data attr tc = (do
      let s ← x.sys.memWrite (.fn (x.place f).1 (x.place f).2) (x.cfg f) addr data attr tc
      .ok ({ x with sys := s }, [])) := by
  unfold memWrite Sys.memWrite Region.write
  have hd0 : ¬ data.length = 0 := fun h => h0 (List.length_eq_zero_iff.1 h)
  simp only [hd0, if_false, decide_false]
  by_cases hbm : (x.cfg f).busMasterEnable = true
  · simp only [hbm, not_true_eq_false, if_false]
    refine requests_quiet (c := x.cfg f) (attr := attr) (tc := tc) _ x hb fun t ht => ?_
    obtain ⟨a, ch, e, i2, i3, i4, -⟩ := Sys.writeLoop_mem (x.cfg f) attr tc data 0 addr (by omega) t ht
    exact ⟨a, ch, e, i2, by omega⟩
  · simp only [hbm, not_false_eq_true, if_true]
    rfl

end IrqNet
end Pcie
