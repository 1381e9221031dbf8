/- The bus scan by configuration accesses to the hierarchy. -/
import Verif.Lemmas.CfgFabricHost
namespace Pcie
open Spec Phys
variable {σ : Type}

/-! ### Dword accesses -/

theorem unpack_bytes (a b c d : UInt8) : ∃ w, Cfg.unpackLE [a, b, c, d] = .ok w ∧ w < 2 ^ 32 := by
  refine ⟨_, rfl, ?_⟩
  have := a.toNat_lt
  have := b.toNat_lt
  have := c.toNat_lt
  have := d.toNat_lt
  refine Nat.or_lt_two_pow (Nat.or_lt_two_pow (Nat.or_lt_two_pow (by omega) ?_) ?_) ?_ <;> rw [Nat.shiftLeft_eq] <;> omega

/-- Reading the four bytes of a register. -/
theorem unpack_reg {v : Nat} (hv : v < 2 ^ 32) {d : List UInt8} (hl : d.length = 4) (hd : ∀ i, i < 4 → d[i]? = some (UInt8.ofNat (v / 256 ^ i))) :
    Cfg.unpackLE d = .ok v := by
  obtain ⟨w, h1, h2⟩ := Cfg.unpackLE_ok d hl
  have hw : w < 2 ^ 32 := by
    match d, hl with
    | [a, b, c, e], _ =>
      obtain ⟨w', q1, q2⟩ := unpack_bytes a b c e
      rw [q1] at h1; cases h1; exact q2
  rw [h1]
  congr 1
  apply Nat.eq_of_testBit_eq
  intro i
  by_cases hi : i < 32
  · rw [h2 i hi _ (hd (i / 8) (by omega)), UInt8.toNat_ofNat', show (256 : Nat) ^ (i / 8) = 2 ^ (8 * (i / 8)) by rw [Nat.pow_mul],
      Nat.testBit_mod_two_pow, Nat.testBit_div_two_pow]
    rw [decide_eq_true (by omega), Bool.true_and]
    congr 1; omega
  · rw [Nat.testBit_lt_two_pow (Nat.lt_of_lt_of_le hw (Nat.pow_le_pow_right (by omega) (by omega))),
      Nat.testBit_lt_two_pow (Nat.lt_of_lt_of_le hv (Nat.pow_le_pow_right (by omega) (by omega)))]

theorem pack_unpack {v : Nat} (hv : v < 2 ^ 32) : ∃ d, Cfg.packLE v = .ok d ∧ d.length = 4 ∧ Cfg.unpackLE d = .ok v := by
  obtain ⟨d, h1, h2, h3⟩ := Cfg.packLE_ok v hv
  exact ⟨d, h1, h2, unpack_reg hv h2 h3⟩

theorem node_readDword (ops : CapOps σ) (tag : Tlp → Nat) {host : BrFn σ} (hh : CfgHost host) {ports : Ports σ} (hp : CfgPorts ports)
    {id : PcieId} (hi : CfgId id) {reg v : Nat} (h : cfgRead ops ports.bus id reg = .ok v) :
    ∃ ports', Node.cfgReadDword ops tag (.sw host ports) id reg = .ok (.sw host ports', v) ∧ After ports ports' ∧ ports'.bus = ports.bus ∧
      (ports.bus.first (id.bus = 0) id ≠ none → Right ports' id) ∧ (v ≠ 0xffffffff → Right ports' id) := by
  unfold cfgRead at h
  split at h
  · rename_i hc
    rw [at_first hc] at h
    cases hf : ports.bus.first (decide (id.bus = 0)) id with
    | none =>
      rw [hf] at h
      cases h
      obtain ⟨ports', h1, h2, h3⟩ := node_read_none ops tag hh hp hi hf (4 * reg) 4
      refine ⟨ports', ?_, h2, h3, fun h => absurd rfl h, fun h => absurd rfl h⟩
      unfold Node.cfgReadDword
      rw [h1]
      rfl
    | some x =>
      rw [hf] at h
      simp only [Option.toList] at h
      split at h
      · rename_i hv
        cases h
        have hreg : ∀ i, i < 4 → (4 * reg + i) / 4 = reg := by omega
        obtain ⟨ports', h1, h2, h3⟩ := node_read ops tag hh hp hi hf (4 * reg) 4 (fun a h1 h2 => by
          have := hreg (a - 4 * reg) (by omega)
          rw [show 4 * reg + (a - 4 * reg) = a by omega] at this
          rw [this]; exact hv)
        have hr : Right ports' id := node_read_taken ops tag hh hp hi (by omega) (by rw [hf]; simp) h1
        refine ⟨ports', ?_, h2, h3, fun _ => hr, fun _ => hr⟩
        unfold Node.cfgReadDword
        rw [h1]
        simp only
        rw [unpack_reg hv (by rw [Mem.read_length]) (by
          intro i hi
          rw [List.getElem?_eq_getElem (by rw [Mem.read_length]; exact hi), Mem.read_getElem]
          unfold cfgBytes
          rw [hreg i hi, show (4 * reg + i) % 4 = i by omega]
          rfl)]
      · cases h
  · cases h

theorem writeReqs_dword (id : PcieId) (reg : Nat) {d : List UInt8} (hd : d.length = 4) :
    Cfg.writeReqs id d 0 (4 * reg) = [Cfg.writeTlp id (4 * reg) d] := by
  rw [Cfg.writeReqs]
  have e : IoRegion.len (4 * reg) (d.length - 0) = 4 := by rw [hd]; unfold IoRegion.len; omega
  rw [dif_pos (by omega)]
  simp only [e]
  rw [Cfg.writeReqs, dif_neg (by omega)]
  have : slice d 0 (0 + 4) = d := by unfold slice; rw [← hd]; simp
  rw [this]

theorem fn_writeDword (ops : CapOps σ) (tag : Tlp → Nat) (id : PcieId) (x : Fn σ) (reg v : Nat) {d : List UInt8} (hd : d.length = 4)
    (hv : Cfg.unpackLE d = .ok v) : Cfg.write (Cfg.Fn.op (fnOps ops) tag) ⟨id, x⟩ id (4 * reg) d = ⟨id, fnWrite ops x reg v 0xf⟩ := by
  have hone := writeReqs_dword id reg hd
  obtain ⟨a1, a2, a3, a4, a5⟩ := Cfg.writeTlp_ok id (4 * reg) d (by omega) (by omega)
  have hdata : (Cfg.writeTlp id (4 * reg) d).data = d := by
    apply List.ext_getElem?
    intro i
    by_cases hi : i < d.length
    · have := a5 i hi
      rw [show 4 * reg % 4 + i = i by omega] at this
      rw [this, List.getElem?_eq_getElem hi]
    · rw [List.getElem?_eq_none (by omega), List.getElem?_eq_none (by omega)]
  have hbe : (Cfg.writeTlp id (4 * reg) d).first_be = 0xf := by
    have p3 := (C07_payload { (({} : Tlp).setFmtType .CFG_WRITE_1) with requester_id := ⟨0, 0, 0⟩, completer_id := id } (4 * reg) d).2.2
    rw [Pcie.setAddrBe_one _ (4 * reg) d.length (by omega) (by omega)] at p3
    have := congrArg Tlp.first_be p3
    simp only [hd, show 4 * reg % 4 = 0 by omega] at this
    exact this
  obtain ⟨q1, q2, q3, q4, q5⟩ := Cfg.toType0_write (tag (Cfg.writeTlp id (4 * reg) d)) _ a1.type
  unfold Cfg.write
  rw [hone, List.foldl_cons, List.foldl_nil, fnOp_serve _ _ (by rw [q3, a3])]
  simp only
  unfold Cfg.Fn.serve
  simp only [q1, reduceCtorEq, Option.some.injEq, if_false, if_true]
  unfold Cfg.Fn.handleWrite
  simp only [q2, q3, q4, q5, a2, a3, hdata, hbe, hv, and_self, if_true, ne_eq, not_true_eq_false, if_false, fnOps]
  rw [Nat.shiftRight_eq_div_pow, show 4 * reg / 4 * 4 / 2 ^ 2 = reg by omega]

theorem node_writeDword (ops : CapOps σ) (tag : Tlp → Nat) {host : BrFn σ} (hh : CfgHost host) {ports : Ports σ} (hp : CfgPorts ports)
    {id : PcieId} (hi : CfgId id) {reg v : Nat} {b : Phys σ} (h : cfgWrite ops ports.bus id reg v = .ok b) :
    ∃ ports', Node.cfgWriteDword ops tag (.sw host ports) id reg v = .ok (.sw host ports') ∧ CfgPorts ports' ∧ ports'.bus = b ∧
      (ports.bus.first (id.bus = 0) id ≠ none → Right ports' id) ∧ ports.same ports' ∧
      ∀ id', id' ≠ id → (id'.bus ≠ 0 → ∀ dsp f, ports.bus.first (id.bus = 0) id = some (.br dsp f) → Stable id' f (f.write ops reg v 0xf)) →
        Right ports id' → Right ports' id' := by
  unfold cfgWrite at h
  split at h
  · rename_i hv
    split at h
    · rename_i hc
      obtain ⟨d, d1, d2, d3⟩ := pack_unpack hv
      have hone := writeReqs_dword id reg d2
      obtain ⟨ports', ge, gb, w1, w2, w5, w6, w7, w3, w4⟩ := cfgOp_write ops tag hh hp hi (writeReqs_req hi d 0 (4 * reg) (Cfg.writeTlp id (4 * reg) d) (by rw [hone]; simp))
      have w4 : ∀ x : Fn σ, fnWrite ops x reg v 0xf = x.mapRegs ge gb := by
        intro x
        have := fn_writeDword ops tag id x reg v d2 d3
        unfold Cfg.write at this
        rw [hone, List.foldl_cons, List.foldl_nil, w4, Cfg.Fn.mk.injEq] at this
        exact this.2.symm
      have hb : b = ports.bus.write ops reg v (id.bus = 0) id := by
        rw [at_first hc] at h
        cases hf : ports.bus.first (decide (id.bus = 0)) id with
        | none => rw [hf] at h; cases h; rw [write_upd ops reg v hc, upd_none hf]
        | some x => rw [hf] at h; cases h; rfl
      refine ⟨ports', ?_, w2, ?_, w5, w6, ?_⟩
      rotate_left 2
      · intro id' hne hst
        refine w7 id' hne fun h0 dsp f hf => ?_
        have := w4 (.br dsp f)
        simp only [fnWrite, Fn.mapRegs, Fn.br.injEq, true_and] at this
        rw [← this]
        exact hst h0 dsp f hf
      · unfold Node.cfgWriteDword Cfg.write
        rw [d1]
        simp only [hone, List.foldl_cons, List.foldl_nil, w1]
      · rw [w3, hb, write_upd ops reg v hc]
        apply upd_congr
        · intro f hf
          have := w4 (.ep f)
          simp only [fnWrite, Fn.mapRegs, Fn.ep.injEq] at this
          exact this.symm
        · intro dsp f hf
          have := w4 (.br dsp f)
          simp only [fnWrite, Fn.mapRegs, true_and, Fn.br.injEq] at this
          exact this.symm
    · cases h
  · cases h

/-! ### The scan -/

section
variable (ops : CapOps σ) (tag : Tlp → Nat) {host : BrFn σ}

theorem node_probeFns (hh : CfgHost host) (n d : Nat) (hn : n ≤ 255) (h0 : ¬ (n = 0 ∧ d = 0)) : ∀ (fs : List Nat) {ports : Ports σ}, CfgPorts ports →
    ∀ {ds : List PDev}, probeFns ops ports.bus n d fs = .ok ds →
    ∃ ports', Node.probeFns ops tag n d fs (.sw host ports) = .ok (.sw host ports', ds) ∧ After ports ports' ∧ ports'.bus = ports.bus ∧ ∀ p ∈ ds, Right ports' p.id := by
  intro fs
  induction fs with
  | nil => intro ports hp ds h; rw [probeFns] at h; cases h; exact ⟨ports, rfl, After.refl hp, rfl, (fun p hp => nomatch hp)⟩
  | cons f fs ih =>
    intro ports hp ds h
    have hi : CfgId ⟨n, d, f⟩ := ⟨hn, fun hh => by rw [PcieId.mk.injEq] at hh; exact h0 ⟨hh.1, hh.2.1⟩⟩
    rw [probeFns] at h
    cases h1 : cfgRead ops ports.bus ⟨n, d, f⟩ 0 with
    | error e => rw [h1] at h; cases h
    | ok v =>
      rw [h1] at h
      simp only [bind, Except.bind] at h
      obtain ⟨p1, i1, i2, i3, -, i4⟩ := node_readDword ops tag hh hp hi h1
      rw [Node.probeFns, i1]
      simp only
      split at h
      · rename_i hv
        rw [if_pos hv]
        obtain ⟨p2, j1, j2, j3, j4⟩ := ih i2.cfg (by rw [i3]; exact h)
        exact ⟨p2, j1, i2.trans j2, by rw [j3, i3], j4⟩
      · rename_i hv
        rw [if_neg hv]
        cases h2 : cfgRead ops ports.bus ⟨n, d, f⟩ 3 with
        | error e => rw [h2] at h; cases h
        | ok w =>
          rw [h2] at h
          simp only at h
          rw [← i3] at h2
          obtain ⟨p2, j1, j2, j3, -⟩ := node_readDword ops tag hh i2.cfg hi h2
          rw [j1]
          simp only
          have hdsp : (Node.sw host p2).cfgDsp ⟨n, d, f⟩ = cfgDsp ports.bus ⟨n, d, f⟩ := by rw [Node.cfgDsp, j3, i3]
          rw [hdsp]
          split at h
          · rename_i hm
            rw [if_pos hm]
            cases h
            refine ⟨p2, rfl, i2.trans j2, by rw [j3, i3], fun q hq => ?_⟩
            rw [List.mem_singleton] at hq
            subst hq
            exact j2.right _ (i4 hv)
          · rename_i hm
            rw [if_neg hm]
            cases h3 : probeFns ops ports.bus n d fs with
            | error e => rw [h3] at h; cases h
            | ok rs =>
              rw [h3] at h
              cases h
              obtain ⟨p3, k1, k2, k3, k4⟩ := ih j2.cfg (by rw [j3, i3]; exact h3)
              rw [k1]
              refine ⟨p3, rfl, (i2.trans j2).trans k2, by rw [k3, j3, i3], fun q hq => ?_⟩
              rcases List.mem_cons.1 hq with rfl | hq
              · exact k2.right _ (j2.right _ (i4 hv))
              · exact k4 q hq

theorem node_probeDevs (hh : CfgHost host) (n : Nat) (one : Bool) : ∀ (l : List Nat) {ports : Ports σ}, CfgPorts ports →
    ∀ {ds : List PDev}, probeDevs ops ports.bus n one l = .ok ds →
    ∃ ports', Node.probeDevs ops tag n one l (.sw host ports) = .ok (.sw host ports', ds) ∧ After ports ports' ∧ ports'.bus = ports.bus ∧ ∀ p ∈ ds, Right ports' p.id := by
  intro l
  induction l with
  | nil => intro ports hp ds h; rw [probeDevs] at h; cases h; exact ⟨ports, rfl, After.refl hp, rfl, (fun p hp => nomatch hp)⟩
  | cons d l ih =>
    intro ports hp ds h
    rw [probeDevs] at h
    rw [Node.probeDevs]
    split at h
    · rename_i h0; rw [if_pos h0]; exact ih hp h
    · rename_i h0
      rw [if_neg h0]
      split at h
      · cases h
      · rename_i hn
        rw [if_neg hn]
        have hi : CfgId ⟨n, d, 0⟩ := ⟨by simp only; omega, fun hh => by rw [PcieId.mk.injEq] at hh; exact h0 ⟨hh.1, hh.2.1⟩⟩
        cases h1 : cfgRead ops ports.bus ⟨n, d, 0⟩ 0 with
        | error e => rw [h1] at h; cases h
        | ok v =>
          rw [h1] at h
          simp only [bind, Except.bind] at h
          obtain ⟨p1, i1, i2, i3, -, i4⟩ := node_readDword ops tag hh hp hi h1
          rw [i1]
          simp only
          split at h
          · rename_i hv
            rw [if_pos hv]
            obtain ⟨p2, j1, j2, j3, j4⟩ := ih i2.cfg (by rw [i3]; exact h)
            exact ⟨p2, j1, i2.trans j2, by rw [j3, i3], j4⟩
          · rename_i hv
            rw [if_neg hv]
            split at h
            · cases h
            · rename_i hv2
              rw [if_neg hv2]
              cases h2 : probeFns ops ports.bus n d (List.range 8) with
              | error e => rw [h2] at h; cases h
              | ok fs =>
                rw [h2] at h
                simp only at h
                rw [← i3] at h2
                obtain ⟨p2, j1, j2, j3, j4⟩ := node_probeFns ops tag hh n d (by omega) h0 _ i2.cfg h2
                rw [j1]
                simp only
                split at h
                · rename_i ho
                  rw [if_pos ho]
                  cases h
                  exact ⟨p2, rfl, i2.trans j2, by rw [j3, i3], j4⟩
                · rename_i ho
                  rw [if_neg ho]
                  cases h3 : probeDevs ops ports.bus n one l with
                  | error e => rw [h3] at h; cases h
                  | ok rs =>
                    rw [h3] at h
                    cases h
                    obtain ⟨p3, k1, k2, k3, k4⟩ := ih j2.cfg (by rw [j3, i3]; exact h3)
                    rw [k1]
                    refine ⟨p3, rfl, (i2.trans j2).trans k2, by rw [k3, j3, i3], fun q hq => ?_⟩
                    rcases List.mem_append.1 hq with hq | hq
                    · exact k2.right _ (j4 q hq)
                    · exact k4 q hq

/-- The functions that are found can be accessed. -/
theorem probeFns_ids {b : Phys σ} {n d : Nat} : ∀ (fs : List Nat) {ds : List PDev}, probeFns ops b n d fs = .ok ds → ∀ p ∈ ds, p.id.bus = n ∧ p.id.device = d := by
  intro fs
  induction fs with
  | nil => intro ds h; rw [probeFns] at h; cases h; exact fun p hp => nomatch hp
  | cons f fs ih =>
    intro ds h
    rw [probeFns] at h
    cases h1 : cfgRead ops b ⟨n, d, f⟩ 0 with
    | error e => rw [h1] at h; cases h
    | ok v =>
      rw [h1] at h
      simp only [bind, Except.bind] at h
      split at h
      · exact ih h
      · cases h2 : cfgRead ops b ⟨n, d, f⟩ 3 with
        | error e => rw [h2] at h; cases h
        | ok w =>
          rw [h2] at h
          simp only at h
          split at h
          · cases h
            intro p hp
            rw [List.mem_singleton] at hp
            subst hp
            exact ⟨rfl, rfl⟩
          · cases h3 : probeFns ops b n d fs with
            | error e => rw [h3] at h; cases h
            | ok rs =>
              rw [h3] at h
              cases h
              intro p hp
              rcases List.mem_cons.1 hp with rfl | hp
              · exact ⟨rfl, rfl⟩
              · exact ih h3 p hp

theorem probeDevs_ids {b : Phys σ} {n : Nat} {one : Bool} : ∀ (l : List Nat) {ds : List PDev}, probeDevs ops b n one l = .ok ds → ∀ p ∈ ds, CfgId p.id := by
  intro l
  induction l with
  | nil => intro ds h; rw [probeDevs] at h; cases h; exact fun p hp => nomatch hp
  | cons d l ih =>
    intro ds h
    rw [probeDevs] at h
    split at h
    · exact ih h
    · rename_i h0
      split at h
      · cases h
      · rename_i hn
        have key : ∀ fs, probeFns ops b n d (List.range 8) = .ok fs → ∀ p ∈ fs, CfgId p.id := by
          intro fs hfs p hp
          obtain ⟨e1, e2⟩ := probeFns_ids ops _ hfs p hp
          refine ⟨by omega, fun hh => h0 ?_⟩
          rw [hh] at e1 e2
          exact ⟨e1.symm, e2.symm⟩
        cases h1 : cfgRead ops b ⟨n, d, 0⟩ 0 with
        | error e => rw [h1] at h; cases h
        | ok v =>
          rw [h1] at h
          simp only [bind, Except.bind] at h
          split at h
          · exact ih h
          · split at h
            · cases h
            · cases h2 : probeFns ops b n d (List.range 8) with
              | error e => rw [h2] at h; cases h
              | ok fs =>
                rw [h2] at h
                simp only at h
                split at h
                · cases h; exact key _ h2
                · cases h3 : probeDevs ops b n one l with
                  | error e => rw [h3] at h; cases h
                  | ok rs =>
                    rw [h3] at h
                    cases h
                    intro p hp
                    rcases List.mem_append.1 hp with hp | hp
                    · exact key fs h2 p hp
                    · exact ih h3 p hp

/-- The scan of the hierarchy with a hole: numbers that were right stay right, and those of the functions found are right. -/
def Scanned (S : Nat) (ports ports' : Ports σ) (ids : List PcieId) : Prop :=
  CfgPorts ports' ∧ ports.same ports' ∧ (∀ id, id.bus ≤ S → Right ports id → Right ports' id) ∧ ∀ id ∈ ids, Right ports' id

theorem idsBelow_le {last : Nat} {b : Phys σ} : ∀ id ∈ idsBelow last b, id.bus ≤ last + bridges b := by
  induction b generalizing last with
  | nil => intro id h; exact nomatch h
  | ep d fn f rest ih => intro id h; exact ih id h
  | br d fn dsp f child rest ihc ih =>
    intro id h
    rw [idsBelow] at h
    rw [bridges]
    rcases List.mem_append.1 h with h | h
    · rcases List.mem_append.1 h with h | h
      · obtain ⟨e, -, rfl⟩ := List.mem_map.1 h
        simp only
        omega
      · have := ihc id h; omega
    · have := ih id h; omega

theorem first_plug {C : List (Frame σ)} {n : Nat} (hC : CtxOk C n) (hn : n ≤ 255) (L : Phys σ) (d fn : Nat)
    (dsp : Bool) (f : Br σ) (child rest : Phys σ) (hs : (top (L.app (.br d fn dsp f child rest))).Pairwise Before) :
    (plug C (L.app (.br d fn dsp f child rest))).first (n = 0) ⟨n, d, fn⟩ = some (.br dsp f) := by
  obtain ⟨hr, hc⟩ := reach_plug hC (L.app (.br d fn dsp f child rest)) hn d fn
  rw [filter_key hs (show (d, fn, Fn.br dsp f) ∈ _ by rw [top_app]; simp [top])] at hr hc
  have hc := hc (Nat.le_refl _)
  rw [at_first hc] at hr
  exact Option.toList_eq_singleton_iff.1 hr

theorem node_scanBridges (hh : CfgHost host) (fuel : Nat)
    (ih : ∀ (C : List (Frame σ)) (n : Nat) (b : Phys σ) (one : Bool), CtxOk C n → BusOk (n = 0) one (top b) → BusesOk b → NoNumbers b →
      depth b < fuel → n + bridges b ≤ 255 → ∀ {ports : Ports σ}, CfgPorts ports → ports.bus = plug C b →
      ∃ ports', Node.scan ops tag fuel (.sw host ports) n one = .ok (.sw host ports', n + bridges b, idsTop n b ++ idsBelow n b) ∧
        ports'.bus = plug C (numbered n n b) ∧ Scanned n ports ports' (idsTop n b ++ idsBelow n b))
    {C : List (Frame σ)} {n : Nat} (hC : CtxOk C n) :
    ∀ (R L : Phys σ) (last : Nat), n ≤ last → Below (last + 1) L → (top (L.app R)).Pairwise Before → BusesOk R → NoNumbers R →
      depth R ≤ fuel → last + bridges R ≤ 255 → (∀ e ∈ top R, CfgId ⟨n, e.1, e.2.1⟩) → ∀ {ports : Ports σ}, CfgPorts ports → ports.bus = plug C (L.app R) →
      ∃ ports', Node.scanBridges ops tag (Node.scan ops tag fuel) n ((top R).map (foundOf n)) (.sw host ports) last =
          .ok (.sw host ports', last + bridges R, idsBelow last R) ∧
        ports'.bus = plug C (L.app (numbered n last R)) ∧ Scanned last ports ports' (idsBelow last R) := by
  intro R
  induction R with
  | nil =>
    intro L last _ _ _ _ _ _ _ _ ports hp he
    exact ⟨ports, rfl, he, hp, Ports.same_refl _, fun _ _ h => h, (fun id h => nomatch h)⟩
  | ep d fn f rest ihR =>
    intro L last hnl hL hs hb hf hd hk hi ports hp he
    simp only [top, List.map_cons, Node.scanBridges, foundOf, Bool.false_eq_true, if_false]
    have := ihR (L.app (.ep d fn f .nil)) last hnl (by intro p hp; rw [brsOf_app] at hp; simp [brsOf] at hp; exact hL p hp)
      (by rw [app_assoc]; exact hs) hb hf hd hk (fun e he => hi e (by simp [top, he])) hp (by rw [app_assoc]; exact he)
    rw [app_assoc] at this
    exact this
  | br d fn dsp f child rest _ ihR =>
    intro L last hnl hL hs hb hf hd hk hi ports hp he
    obtain ⟨hb1, hb2, hb3⟩ := hb
    obtain ⟨hf1, hf2, hf3⟩ := hf
    simp only [depth, bridges] at hd hk
    have hn : n ≤ 255 := by omega
    have hid : CfgId ⟨n, d, fn⟩ := hi (d, fn, .br dsp f) (by simp [top])
    have hkey : (d, fn, Fn.br dsp f) ∈ top (L.app (.br d fn dsp f child rest)) := by rw [top_app]; simp [top]
    have hread := reach_read ops (reach_plug hC (L.app (.br d fn dsp f child rest)) hn) hs hkey 6 (read_buses_lt ops dsp f)
    simp only [top, List.map_cons, Node.scanBridges, foundOf, if_true]
    obtain ⟨p1, i1, i2, i3, i4, -⟩ := node_readDword ops tag hh hp hid (by rw [he]; exact hread)
    have hr1 : Right p1 ⟨n, d, fn⟩ := i4 (by rw [he, first_plug hC hn L d fn dsp f child rest hs]; simp)
    rw [i1]
    simp only
    generalize hold : (Fn.br dsp f).read ops 6 = old at *
    have hw1 := write_local ops hC hn L d fn dsp f child rest hs old n (last + 1) 0xff (by omega) (by omega) (by omega)
    obtain ⟨p2, j1, j2, j3, j4, j5, j6⟩ := node_writeDword ops tag hh i2.cfg hid (by rw [i3, he]; exact hw1)
    rw [j1]
    simp only
    -- the scan of the secondary bus
    have hCh : CtxOk (⟨L, d, fn, dsp, { f with priBus := n, secBus := last + 1, subBus := 0xff }, rest⟩ :: C) (last + 1) := by
      refine ⟨n, hC, by omega, rfl, rfl, hL, ?_⟩
      intro p hp
      have : ∀ (r : Phys σ), NoNumbers r → ∀ p ∈ brsOf r, p.1.subBus = 0 := by
        intro r
        induction r with
        | nil => intro _ p hp; simp [brsOf] at hp
        | ep d fn f rest ih => intro hr p hp; exact ih hr p hp
        | br d fn dsp f child rest _ ih =>
          intro hr p hp
          rcases List.mem_cons.1 hp with h | h
          · rw [h]; exact hr.1
          · exact ih hr.2.2 p h
      rw [this rest hf3 p hp]; omega
    obtain ⟨p3, k1, k2, k3, k4, k5, k6⟩ := ih _ (last + 1) child dsp hCh (by simpa using hb1) hb2 hf2 (by omega) (by omega) j2 j3
    rw [k1]
    simp only
    -- the second write
    have hs2 : (top (L.app (.br d fn dsp { f with priBus := n, secBus := last + 1, subBus := 0xff }
        (numbered (last + 1) (last + 1) child) rest))).Pairwise Before := by
      apply pairwise_map _ hs
      rw [top_app, top_app]; simp [top]
    simp only [plug] at k2
    have hw2 := write_local ops hC hn L d fn dsp _ _ rest hs2 (busesReg old n (last + 1) 0xff) n (last + 1) (last + 1 + bridges child) (by omega) (by omega) (by omega)
    obtain ⟨p4, l1, l2, l3, l4, l5, l6⟩ := node_writeDword ops tag hh k3 hid (by rw [k2]; exact hw2)
    rw [l1]
    simp only
    -- the other bridges
    obtain ⟨p5, m1, m2, m3, m4, m5, m6⟩ := ihR (L.app (.br d fn dsp { f with priBus := n, secBus := last + 1, subBus := last + 1 + bridges child }
      (numbered (last + 1) (last + 1) child) .nil)) (last + 1 + bridges child) (by omega)
      (by
        intro p hp
        rw [brsOf_app] at hp
        rcases List.mem_append.1 hp with h | h
        · have := hL p h; omega
        · simp [brsOf] at h; rw [h]; simp)
      (by
        apply pairwise_map _ hs
        rw [app_assoc, top_app, top_app]; simp [top, app])
      hb3 hf3 (by omega) (by omega) (fun e he => hi e (by simp [top, he])) l2 (by rw [l3, app_assoc]; rfl)
    rw [m1]
    simp only [numbered, idsBelow, bridges, Nat.add_assoc] at *
    rw [app_assoc] at m2
    -- the numbers stay right
    have w1 : ∀ id, id.bus ≤ last → Right ports id → Right p2 id := by
      intro id hle hr
      have hr := i2.right id hr
      by_cases hid' : id = ⟨n, d, fn⟩
      · subst hid'; exact j4 (right_first hr1)
      · refine j6 id hid' (fun h0 dsp' f' hf' => ?_) hr
        rw [i3, he, first_plug hC hn L d fn dsp f child rest hs] at hf'
        cases hf'
        rw [write_buses ops f old n (last + 1) 0xff (by omega) (by omega) (by omega)]
        have e1 : behind f id = false := by
          simp only [behind, decide_eq_false_iff_not]
          omega
        refine ⟨?_, fun h => ?_⟩
        · rw [e1]
          simp only [behind, decide_eq_false_iff_not]
          omega
        · rw [e1] at h; cases h
    have w2 : ∀ id, id.bus ≤ last + (1 + bridges child) → Right p3 id → Right p4 id := by
      intro id hle hr
      by_cases hid' : id = ⟨n, d, fn⟩
      · subst hid'; exact l4 (right_first hr)
      · refine l6 id hid' (fun h0 dsp' f' hf' => ?_) hr
        rw [k2, first_plug hC hn L d fn dsp _ _ rest hs2] at hf'
        cases hf'
        rw [write_buses ops _ _ n (last + 1) (last + (1 + bridges child)) (by omega) (by omega) (by omega)]
        refine ⟨?_, fun h => Iff.rfl⟩
        simp only [behind, decide_eq_decide]
        refine and_congr_right fun _ => and_congr_left fun _ => ?_
        omega
    refine ⟨p5, rfl, m2, m3, Ports.same_trans _ (Ports.same_trans _ (Ports.same_trans _ i2.same j5) k4) (Ports.same_trans _ l5 m4), ?_, ?_⟩
    · intro id hle hr
      exact m5 id (by omega) (w2 id (by omega) (k5 id (by omega) (w1 id hle hr)))
    · intro id hid'
      rcases List.mem_append.1 hid' with h | h
      · have hle : id.bus ≤ last + (1 + bridges child) := by
          rcases List.mem_append.1 h with h | h
          · obtain ⟨e, -, rfl⟩ := List.mem_map.1 h
            simp only
            omega
          · have := idsBelow_le id h; omega
        exact m5 id hle (w2 id hle (k6 id h))
      · exact m6 id h

theorem node_scan (hh : CfgHost host) : ∀ (fuel : Nat) (C : List (Frame σ)) (n : Nat) (b : Phys σ) (one : Bool), CtxOk C n →
    BusOk (n = 0) one (top b) → BusesOk b → NoNumbers b → depth b < fuel → n + bridges b ≤ 255 →
    ∀ {ports : Ports σ}, CfgPorts ports → ports.bus = plug C b →
    ∃ ports', Node.scan ops tag fuel (.sw host ports) n one = .ok (.sw host ports', n + bridges b, idsTop n b ++ idsBelow n b) ∧
      ports'.bus = plug C (numbered n n b) ∧ Scanned n ports ports' (idsTop n b ++ idsBelow n b) := by
  intro fuel
  induction fuel with
  | zero => intros; omega
  | succ fuel ih =>
    intro C n b one hC ho hb hf hd hk ports hp he
    have hpr := probe_spec ops (reach_plug hC b (by omega)) (by omega) ho
    rw [← he] at hpr
    have hids := probeDevs_ids ops _ hpr
    obtain ⟨p1, i1, i2, i3, i4⟩ := node_probeDevs ops tag hh n one _ hp hpr
    have hi : ∀ e ∈ top b, CfgId ⟨n, e.1, e.2.1⟩ := by
      intro e he
      have := hids (foundOf n e) (List.mem_map_of_mem he)
      obtain ⟨d, fn, x⟩ := e
      cases x <;> exact this
    have hr : ∀ id ∈ idsTop n b, Right p1 id := by
      intro id hid
      obtain ⟨e, he, rfl⟩ := List.mem_map.1 hid
      have := i4 (foundOf n e) (List.mem_map_of_mem he)
      obtain ⟨d, fn, x⟩ := e
      cases x <;> exact this
    obtain ⟨p2, j1, j2, j3, j4, j5, j6⟩ := node_scanBridges ops tag hh fuel (fun C n b one h1 h2 h3 h4 h5 h6 => ih C n b one h1 h2 h3 h4 h5 h6) hC b .nil n (Nat.le_refl _)
      (by intro p hp; simp [brsOf] at hp) ho.sorted hb hf (by omega) hk hi i2.cfg (by rw [i3, he]; rfl)
    rw [Node.scan, i1]
    simp only
    rw [j1]
    have hmap : ((top b).map (foundOf n)).map (·.id) = idsTop n b := by
      rw [List.map_map]
      refine List.map_congr_left fun e _ => ?_
      obtain ⟨d, fn, x⟩ := e
      cases x <;> rfl
    simp only [hmap]
    refine ⟨p2, rfl, j2, j3, Ports.same_trans _ i2.same j4, fun id hle h => j5 id hle (i2.right id h), fun id hid => ?_⟩
    rcases List.mem_append.1 hid with h | h
    · refine j5 id ?_ (hr id h)
      obtain ⟨e, -, rfl⟩ := List.mem_map.1 h
      exact Nat.le_refl _
    · exact j6 id h

end

end Pcie
