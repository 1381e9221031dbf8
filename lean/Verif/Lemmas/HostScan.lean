/- The bus scan by the host, with `setup` of the functions found. -/
import Verif.Lemmas.HostProbe
namespace Pcie
open Spec Phys
variable {σ : Type}

/-- The hierarchy after BAR sizing of all functions. -/
def rdAll (ops : CapOps σ) : Phys σ → Phys σ
  | .nil => .nil
  | .ep d fn f rest => .ep d fn (rdE ops f).1 (rdAll ops rest)
  | .br d fn dsp f child rest => .br d fn dsp (rdB ops f).1 (rdAll ops child) (rdAll ops rest)

theorem bridges_rdAll (ops : CapOps σ) (b : Phys σ) : bridges (rdAll ops b) = bridges b := by
  induction b with
  | nil => rfl
  | ep d fn f rest ih => exact ih
  | br d fn dsp f child rest ihc ih => simp only [rdAll, bridges, ihc, ih]

theorem rdB_range (ops : CapOps σ) (f : Br σ) : (rdB ops f).1.renum f.priBus f.secBus f.subBus = (rdB ops f).1 := by
  have h := readBars_renum ops f.priBus f.secBus f.subBus f {}
  rw [show f.renum f.priBus f.secBus f.subBus = f from rfl] at h
  unfold rdB
  cases hr : readBars (Br.regs ops) 2 14 f {} with
  | error e => rfl
  | ok r =>
    obtain ⟨f', d⟩ := r
    rw [hr] at h
    exact congrArg Prod.fst (Except.ok.inj h).symm

/-- What the host has found: the functions of the bus with number `m` and of the buses behind its bridges, where `last` is
the last bus number used before. -/
def Rec (ops : CapOps σ) : (m last : Nat) → Phys σ → Host.Tree → Prop
  | _, _, .nil, .nil => True
  | m, last, .ep d fn f rest, .fn p t => Describes ⟨m, d, fn⟩ (.ep f) p ∧ p.bars = (rdE ops f).2 ∧ Rec ops m last rest t
  | m, last, .br d fn dsp f child rest, .bridge p tc t => Describes ⟨m, d, fn⟩ (.br dsp f) p ∧ p.bars = (rdB ops f).2 ∧
      Rec ops (last + 1) (last + 1) child tc ∧ Rec ops m (last + 1 + bridges child) rest t
  | _, _, _, _ => False

section
variable {ops : CapOps σ} {tag : Tlp → Nat} {host : BrFn σ}

/-- Writing the bus numbers of a bridge. -/
theorem Tr.writeBuses (hh : CfgHost host) {C : List (Frame σ)} {m U : Nat} (h : Path C m U) (hU : m ≤ U) {d fn : Nat} {L : Phys σ} (hk : NoKey d fn L)
    (hi : CfgId ⟨m, d, fn⟩) (dsp : Bool) (f : Br σ) (c R : Phys σ) {old p s u : Nat} (hp : p < 256) (hs : s < 256) (hu : u < 256) {S : PcieId → Prop}
    (hS : ∀ id, S id → id ≠ ⟨m, d, fn⟩ → id.bus ≠ 0 → Stable id f (f.renum p s u)) :
    Tr ops tag host (Host.writeDword ⟨m, d, fn⟩ (4 * 6) (busesReg old p s u)) (plug C (L.app (.br d fn dsp f c R))) S ()
      (plug C (L.app (.br d fn dsp (f.renum p s u) c R))) S := by
  obtain ⟨h1, h2⟩ := path_ent h hU hk (.br dsp f) c R
  have hv := (buses_fields old p s u hp hs hu).2.2.2
  have hw : wrote ops tag ⟨m, d, fn⟩ (.br dsp f) (4 * 6) (digits 4 (busesReg old p s u)) = .br dsp (f.renum p s u) := by
    rw [wrote_int _ _ 6 4 _ (.inr rfl) hv]
    show Fn.br dsp (f.write ops 6 (busesReg old p s u) 0xf) = _
    rw [write_buses ops f old p s u hp hs hu]
    rfl
  obtain ⟨t, -⟩ := Tr.wr (ops := ops) (tag := tag) hh hi h1 (addr := 4 * 6) (d := digits 4 (busesReg old p s u)) (by rw [digits_length]; omega)
    (by rw [digits_length]) (S := S) (fun id' q1 q2 q0 dsp' g g' q3 q4 => by
      rw [hw] at q4
      cases q3
      cases q4
      exact hS id' q1 q2 q0)
  rw [hw, h2 (.br dsp (f.renum p s u)) rfl] at t
  unfold Host.writeDword Host.writeInt toBytes
  rw [if_pos (show busesReg old p s u < 256 ^ 4 from hv)]
  exact t

theorem scanBridges_tr (hh : CfgHost host) (fuel : Nat)
    (ih : ∀ (C : List (Frame σ)) (n : Nat) (b : Phys σ) (one : Bool) (S : PcieId → Prop), CtxOk C n → BusOk (n = 0) one (top b) → BusesOk b → NoNumbers b →
      Good ops b → depth b < fuel → n + bridges b ≤ 255 →
      ∃ t, Tr ops tag host (Host.scan fuel n one) (plug C b) S (n + bridges b, t) (plug C (numbered n n (rdAll ops b)))
        (fun id => (id.bus ≤ n ∧ S id) ∨ id ∈ idsTop n b ++ idsBelow n b) ∧ Rec ops n n b t)
    {C : List (Frame σ)} {n : Nat} (hC : CtxOk C n) :
    ∀ (R L : Phys σ) (last : Nat) (ds : List Host.Device) (S : PcieId → Prop), n ≤ last → Below (last + 1) L → (top (L.app R)).Pairwise Before → BusesOk R →
      NoNumbers R → Good ops R → depth R ≤ fuel → last + bridges R ≤ 255 → (∀ e ∈ top R, CfgId ⟨n, e.1, e.2.1⟩) → DsOk ops n (top R) ds →
      ∃ t, Tr ops tag host (Host.scanBridges (Host.scan fuel) n ds last) (plug C (L.app (rdTop ops R))) S (last + bridges R, t)
          (plug C (L.app (numbered n last (rdAll ops R)))) (fun id => (id.bus ≤ last ∧ S id) ∨ id ∈ idsBelow last R) ∧ Rec ops n last R t := by
  intro R
  induction R with
  | nil =>
    intro L last ds S _ _ _ _ _ _ _ _ _ hds
    cases ds with
    | nil => exact ⟨.nil, Tr.pure.mono (fun _ h => h) (fun id h => (h.resolve_right (fun h => nomatch h)).2), trivial⟩
    | cons p ds => exact hds.elim
  | ep d fn f rest ihR =>
    intro L last ds S hnl hL hs hb hf hg hd hk hi hds
    cases ds with
    | nil => exact hds.elim
    | cons p ds =>
      obtain ⟨d1, d2, d3⟩ := hds
      obtain ⟨t, q1, q2⟩ := ihR (L.app (.ep d fn (rdE ops f).1 .nil)) last ds S hnl (by intro p hp; rw [brsOf_app] at hp; simp [brsOf] at hp; exact hL p hp)
        (by
          apply pairwise_map _ hs
          rw [app_assoc, top_app, top_app]; simp [top, app]) hb hf hg.2 hd hk (fun e he => hi e (by simp [top, he])) d3
      rw [app_assoc, app_assoc] at q1
      refine ⟨.fn p t, ?_, d1, d2, q2⟩
      have hbr : ¬ p.isBridge = true := by
        have := d1.header
        have h2 := hg.1.1
        simp only [common] at this
        simp only [Host.Device.isBridge, this, show (2 : Nat) ^ 7 = 128 from rfl, h2]
        decide
      rw [Host.scanBridges, if_neg hbr]
      exact Tr.bind q1 Tr.pure
  | br d fn dsp f child rest _ ihR =>
    intro L last ds S hnl hL hs hb hf hg hd hk hi hds
    cases ds with
    | nil => exact hds.elim
    | cons p ds =>
    obtain ⟨d1, d2, d3⟩ := hds
    obtain ⟨hb1, hb2, hb3⟩ := hb
    obtain ⟨hf1, hf2, hf3⟩ := hf
    obtain ⟨hg1, hg2, hg3⟩ := hg
    simp only [depth, bridges] at hd hk
    have hn : n ≤ 255 := by omega
    have hid : CfgId ⟨n, d, fn⟩ := hi (d, fn, .br dsp f) (by simp [top])
    have hkL : NoKey d fn L := fun e he hc => by
      rw [top_app, List.pairwise_append] at hs
      have := hs.2.2 e he (d, fn, .br dsp f) (by simp [top])
      simp only [Before] at this
      omega
    have hbr : p.isBridge = true := by
      have := d1.header
      have h2 := hg1.1
      simp only [common] at this
      simp only [Host.Device.isBridge, this, show (2 : Nat) ^ 7 = 128 from rfl, h2]
      decide
    have hrange := rdB_range ops f
    generalize hf' : (rdB ops f).1 = f' at hrange
    have hsub : f'.subBus = 0 := by rw [← hrange]; exact hf1
    -- the first accesses
    have t1 := Tr.readD (ops := ops) (tag := tag) hh hid (path_ent (path_of hC) hn hkL (.br dsp f') child (rdTop ops rest)).1 (r := 6) (read_buses_lt ops dsp f') (S := S)
    generalize hold : (Fn.br dsp f').read ops 6 = old at t1
    have t2 := Tr.writeBuses (ops := ops) (tag := tag) hh (path_of hC) hn hkL hid dsp f' child (rdTop ops rest) (old := old) (p := n) (s := last + 1) (u := 0xff)
      (by omega) (by omega) (by omega) (S := fun id => id.bus ≤ last ∧ S id) (fun id hq _ h0 => by
        have e1 : behind f' id = false := by
          simp only [behind, decide_eq_false_iff_not]
          omega
        refine ⟨?_, fun h => ?_⟩
        · rw [e1]
          unfold behind
          rw [decide_eq_false_iff_not]
          simp only [Br.renum]
          omega
        · rw [e1] at h; cases h)
    -- the scan of the secondary bus
    have hCh : CtxOk (⟨L, d, fn, dsp, f'.renum n (last + 1) 0xff, rdTop ops rest⟩ :: C) (last + 1) := by
      refine ⟨n, hC, by omega, rfl, rfl, hL, ?_⟩
      intro p hp
      have : ∀ (r : Phys σ), NoNumbers r → ∀ p ∈ brsOf (rdTop ops r), p.1.subBus = 0 := by
        intro r
        induction r with
        | nil => intro _ p hp; simp [brsOf, rdTop] at hp
        | ep d fn f rest ih => intro hr p hp; exact ih hr p hp
        | br d fn dsp f child rest _ ih =>
          intro hr p hp
          rcases List.mem_cons.1 hp with h | h
          · rw [h]
            have := rdB_range ops f
            simp only
            rw [← this]; exact hr.1
          · exact ih hr.2.2 p h
      rw [this rest hf3 p hp]; omega
    obtain ⟨tc, t3, r3⟩ := ih _ (last + 1) child dsp (fun id => id.bus ≤ last ∧ S id) hCh (by simpa using hb1) hb2 hf2 hg2 (by omega) (by omega)
    simp only [plug] at t3
    -- the second write
    have t4 := Tr.writeBuses (ops := ops) (tag := tag) hh (path_of hC) hn hkL hid dsp (f'.renum n (last + 1) 0xff) (numbered (last + 1) (last + 1) (rdAll ops child))
      (rdTop ops rest) (old := busesReg old n (last + 1) 0xff) (p := n) (s := last + 1) (u := last + 1 + bridges child)
      (by omega) (by omega) (by omega) (S := fun id => (id.bus ≤ last ∧ S id) ∨ id ∈ idsTop (last + 1) child ++ idsBelow (last + 1) child) (fun id hq _ h0 => by
        have hle : id.bus ≤ last + 1 + bridges child := by
          rcases hq with h | h
          · omega
          · rcases List.mem_append.1 h with h | h
            · obtain ⟨e, -, rfl⟩ := List.mem_map.1 h
              simp only
              omega
            · exact idsBelow_le id h
        refine ⟨?_, fun h => Iff.rfl⟩
        unfold behind
        rw [decide_eq_decide]
        simp only [Br.renum]
        refine and_congr_right fun _ => and_congr_left fun _ => ?_
        omega)
    -- the other bridges
    obtain ⟨tr, t5, r5⟩ := ihR (L.app (.br d fn dsp ((f'.renum n (last + 1) 0xff).renum n (last + 1) (last + 1 + bridges child))
      (numbered (last + 1) (last + 1) (rdAll ops child)) .nil)) (last + 1 + bridges child) ds
      (fun id => (id.bus ≤ last ∧ S id) ∨ id ∈ idsTop (last + 1) child ++ idsBelow (last + 1) child) (by omega)
      (by
        intro p hp
        rw [brsOf_app] at hp
        rcases List.mem_append.1 hp with h | h
        · have := hL p h; omega
        · simp [brsOf] at h; rw [h]; simp [Br.renum])
      (by
        apply pairwise_map _ hs
        rw [app_assoc, top_app, top_app]; simp [top, app])
      hb3 hf3 hg3 (by omega) (by omega) (fun e he => hi e (by simp [top, he])) d3
    rw [app_assoc, app_assoc] at t5
    refine ⟨.bridge p tc tr, ?_, d1, d2, r3, r5⟩
    rw [Host.scanBridges, if_pos hbr, d1.id, d1.dsp]
    simp only [rdTop, rdAll, numbered, hf', bridges_rdAll, bridges]
    refine Tr.bind t1 (Tr.bind (t2.mono (fun id h => .inl h.2) (fun _ h => h)) (Tr.bind t3 (Tr.bind (t4.mono (fun id h => ?_) (fun _ h => h)) (Tr.bind t5 ?_))))
    · rcases h with h | h
      · exact .inl ⟨by omega, h⟩
      · exact .inr h
    · rw [show last + (1 + bridges child + bridges rest) = last + 1 + bridges child + bridges rest by omega]
      refine Tr.pure.mono (fun _ h => h) (fun id h => ?_)
      rcases h with h | h
      · exact .inl ⟨by omega, .inl h⟩
      · rw [idsBelow] at h
        rcases List.mem_append.1 h with h | h
        · refine .inl ⟨?_, .inr h⟩
          rcases List.mem_append.1 h with h | h
          · obtain ⟨e, -, rfl⟩ := List.mem_map.1 h
            simp only
            omega
          · exact idsBelow_le id h
        · exact .inr h

theorem scan_tr (hh : CfgHost host) : ∀ (fuel : Nat) (C : List (Frame σ)) (n : Nat) (b : Phys σ) (one : Bool) (S : PcieId → Prop), CtxOk C n →
    BusOk (n = 0) one (top b) → BusesOk b → NoNumbers b → Good ops b → depth b < fuel → n + bridges b ≤ 255 →
    ∃ t, Tr ops tag host (Host.scan fuel n one) (plug C b) S (n + bridges b, t) (plug C (numbered n n (rdAll ops b)))
      (fun id => (id.bus ≤ n ∧ S id) ∨ id ∈ idsTop n b ++ idsBelow n b) ∧ Rec ops n n b t := by
  intro fuel
  induction fuel with
  | zero => intros; omega
  | succ fuel ih =>
    intro C n b one S hC ho hb hf hg hd hk
    obtain ⟨ds, t1, d1⟩ := probeDevs_tr (ops := ops) (tag := tag) hh hC (by omega) ho 32 0 .nil b S rfl ho.sorted (fun e he => nomatch he) (fun e he => Nat.zero_le _)
      (fun e he => he) ho.zero hg
    have hi : ∀ e ∈ top b, CfgId ⟨n, e.1, e.2.1⟩ := fun e he => ⟨by simp only; omega, fun h => by
      rw [PcieId.mk.injEq] at h
      exact ho.host (by simpa using h.1) e he h.2.1⟩
    obtain ⟨t, t2, r2⟩ := scanBridges_tr hh fuel ih hC b .nil n ds (fun id => S id ∨ id ∈ idsTop n b) (Nat.le_refl _)
      (by intro p hp; simp [brsOf] at hp) ho.sorted hb hf hg (by omega) hk hi d1
    refine ⟨t, ?_, r2⟩
    rw [Host.scan, List.range_eq_range']
    refine Tr.bind t1 (t2.mono (fun _ h => h) (fun id h => ?_))
    rcases h with h | h
    · exact .inl ⟨h.1, .inl h.2⟩
    · rcases List.mem_append.1 h with h | h
      · refine .inl ⟨?_, .inr h⟩
        obtain ⟨e, -, rfl⟩ := List.mem_map.1 h
        exact Nat.le_refl _
      · exact .inr h

end

end Pcie
