/-
Lemmas about devices, completers and switches for C27 and C45.
-/
import Verif.Lemmas.Route
import Verif.Lemmas.Bar
import Verif.Lemmas.MemRead
namespace Pcie
open Spec

theorem goodBarsFrom_of_layout {i : Nat} {bars : List BarReg} {ws : List Window} (h : Layout i bars ws)
    (hk : ∀ w ∈ ws, w.k < 32) (addr : Nat) (io : Bool) : ∃ r, matchBarFrom io addr i bars = .ok r := by
  induction h with
  | nil i => exact ⟨none, rfl⟩
  | absent i r rs ws h0 _ ih => unfold matchBarFrom; rw [if_pos (by rw [h0])]; exact ih hk
  | mem32 i r rs ws base k h _ ih =>
    obtain ⟨h1, h2, h3, h4, h5, h6⟩ := h
    have hal := mod16_of_align base k h1 h3
    have ih := ih (fun w hw => hk w (by simp [hw]))
    have e1 : r.val &&& 1 = 0 := by rw [and_1]; omega
    have e4 : r.val &&& 4 = 0 := by
      apply Nat.eq_of_testBit_eq; intro j
      rw [Nat.testBit_and, show (4 : Nat) = 2 ^ 2 from rfl, Nat.testBit_two_pow, Nat.zero_testBit]
      by_cases hj : 2 = j
      · subst hj
        rw [Nat.testBit_eq_decide_div_mod_eq]
        simp; omega
      · simp [hj]
    unfold matchBarFrom
    simp only [e1, e4, ne_eq, not_true_eq_false, if_false]
    split
    · exact ih
    · split
      · exact ⟨_, rfl⟩
      · exact ih
  | io i r rs ws base k h _ ih =>
    obtain ⟨h1, h2, h3, h4, h5, h6⟩ := h
    have hal := mod4_of_align base k h1 h3
    have ih := ih (fun w hw => hk w (by simp [hw]))
    have e1 : r.val &&& 1 = 1 := by rw [and_1]; omega
    unfold matchBarFrom
    simp only [e1]
    split
    · exact ih
    · rw [if_pos (by decide)]
      split
      · exact ⟨_, rfl⟩
      · exact ih
  | mem64 i lo hi rs ws base k h _ ih =>
    obtain ⟨h1, h2, h3, h4, h5, h6, h7, h8⟩ := h
    have ih := ih (fun w hw => hk w (by simp [hw]))
    have hk32 : k < 32 := hk ⟨i, false, true, base, k⟩ (by simp)
    have hp : 2 ^ k < 2 ^ 32 := (pow_bounds k 32 hk32).2
    have hp1 : 1 ≤ 2 ^ k := Nat.two_pow_pos k
    have hm : lo.mask ≠ 0 := by rw [h7]; omega
    have hal := mod16_of_align base k h1 h3
    have e1 : lo.val &&& 1 = 0 := by rw [and_1]; omega
    have e4 : lo.val &&& 4 ≠ 0 := by
      intro h
      have := congrArg (fun n => Nat.testBit n 2) h
      rw [Nat.testBit_and, show Nat.testBit 4 2 = true from rfl, Bool.and_true, Nat.zero_testBit,
        Nat.testBit_eq_decide_div_mod_eq, decide_eq_false_iff_not] at this
      omega
    unfold matchBarFrom
    rw [if_neg hm, if_neg (by rw [e1]; simp), if_pos e4]
    simp only
    split
    · exact ⟨_, rfl⟩
    · exact ih

theorem goodBars_of_layout {bars : List BarReg} {ws : List Window} (h : Layout 0 bars ws) (hk : ∀ w ∈ ws, w.k < 32) :
    GoodBars bars := fun addr io => goodBarsFrom_of_layout h hk addr io

/-! ### Devices -/

theorem setBus_fn (d : Dev) (n k : Nat) :
    (d.setBus n).fns[k]? = (d.fns[k]?).map fun f => if d.bus ≠ n then { f with id := { f.id with bus := n } } else f := by
  unfold Dev.setBus
  by_cases h : d.bus ≠ n
  · simp only [h, ne_eq, not_false_eq_true, if_true, List.getElem?_map]
  · simp only [h, if_false]; cases d.fns[k]? <;> rfl

theorem setBus_bus (d : Dev) (n : Nat) : (d.setBus n).bus = n := by
  unfold Dev.setBus
  split
  · rfl
  · omega

theorem RFn.upstreamRecv_spec (f : RFn) {t : Tlp} {ty : TlpType} (ht : t.fmtType = some ty) (hc : t.check = .ok true)
    (hp : Prepared f.handlers ty t) : ∃ f' es, f.upstreamRecv t = .ok (f', es) ∧ Taken ty t es := by
  unfold RFn.upstreamRecv
  rw [assertCheck_ok hc]
  simp only
  obtain ⟨f1, h1, e1⟩ : ∃ f1 : RFn, f1.handlers = f.handlers ∧ (if t.isCompletion = true ∧ t.status = CplStatus.CA then { f with rcvTargetAbort := true }
      else if t.isCompletion = true ∧ t.status = CplStatus.UR then { f with rcvMasterAbort := true } else f) = f1 := by
    refine ⟨_, ?_, rfl⟩
    split
    · rfl
    · split <;> rfl
  rw [e1]
  obtain ⟨f2, h2, e2⟩ : ∃ f2 : RFn, f2.handlers = f1.handlers ∧ (if f1.parityResp = true ∧ t.ep = true then { f1 with masterParity := true } else f1) = f2 := by
    refine ⟨_, ?_, rfl⟩
    split <;> rfl
  rw [e2]
  obtain ⟨es, he, hT⟩ := handleTlp_spec (handlers := f2.handlers) ht (by rw [h2, h1]; exact hp)
  rw [he]
  exact ⟨f2, es, rfl, hT⟩

theorem Dev.upstreamRecv_spec (d : Dev) {t : Tlp} {ty : TlpType} {tg : Target} (ht : t.fmtType = some ty)
    (htg : target t ty = some tg) (hc : t.check = .ok true) (hb : ∀ f ∈ d.fns, GoodBars f.bars)
    (hp : ∀ f ∈ d.fns, ForFn f.id f.bars tg → Prepared f.handlers ty t) :
    ∃ d' who es, d.upstreamRecv t = .ok (d', who, es) ∧
      (match who with
      | some k => ∃ f, d.fns[k]? = some f ∧ ForFn f.id f.bars tg ∧ Taken ty t es ∧
          ∀ k' f', k' < k → d.fns[k']? = some f' → ¬ ForFn f'.id f'.bars tg
      | none => (∀ f ∈ d.fns, ¬ ForFn f.id f.bars tg) ∧ Dropped .up ty t ⟨d'.bus, 0, 0⟩ es) ∧
      d'.bus = busAfter d.bus tg := by
  obtain ⟨d1, e1, hbus, hfn⟩ : ∃ d1 : Dev, d.latch t = d1 ∧ d1.bus = busAfter d.bus tg ∧
      ∀ k, ∃ g : RFn → RFn, d1.fns[k]? = (d.fns[k]?).map g ∧
        ∀ f, (g f).bars = f.bars ∧ (g f).handlers = f.handlers ∧ (ForFn (g f).id (g f).bars tg ↔ ForFn f.id f.bars tg) := by
    unfold Dev.latch
    rw [ht]
    simp only
    cases hz : ty.isCfg0
    · refine ⟨d, rfl, ?_, fun k => ⟨fun f => f, by rw [Option.map_id'], fun f => ⟨rfl, rfl, Iff.rfl⟩⟩⟩
      cases ty <;> cases hz <;> first | (cases htg; rfl) | cases htg
    · have htg2 : tg = .cfg0 t.completer_id := by cases ty <;> cases hz <;> (cases htg; rfl)
      refine ⟨d.setBus t.completer_id.bus, rfl, ?_, fun k => ⟨_, setBus_fn d t.completer_id.bus k, fun f => ?_⟩⟩
      · rw [setBus_bus, htg2]; rfl
      · rw [htg2]
        split
        · exact ⟨rfl, rfl, Iff.rfl⟩
        · exact ⟨rfl, rfl, Iff.rfl⟩
  have hmem : ∀ f1 ∈ d1.fns, ∃ f ∈ d.fns, f1.bars = f.bars ∧ (ForFn f1.id f1.bars tg ↔ ForFn f.id f.bars tg) := by
    intro f1 h1
    obtain ⟨k, hk⟩ := List.getElem?_of_mem h1
    obtain ⟨g, hg, hg2⟩ := hfn k
    rw [hg] at hk
    cases hd : d.fns[k]? with
    | none => rw [hd] at hk; cases hk
    | some f =>
      rw [hd] at hk; cases hk
      exact ⟨f, List.mem_of_getElem? hd, (hg2 f).1, (hg2 f).2.2⟩
  unfold Dev.upstreamRecv
  rw [assertCheck_ok hc]
  simp only
  rw [e1]
  obtain ⟨r, hr, hr'⟩ := Dev.findFn_spec ht htg d1.fns 0 (fun f1 h1 => by
    obtain ⟨f, h2, h3, -⟩ := hmem f1 h1
    rw [h3]; exact hb f h2)
  rw [hr]
  cases r with
  | none =>
    have hnone : ∀ f ∈ d.fns, ¬ ForFn f.id f.bars tg := by
      intro f hf
      obtain ⟨k, hk⟩ := List.getElem?_of_mem hf
      obtain ⟨g, hg, hg2⟩ := hfn k
      rw [hk] at hg
      rw [← (hg2 f).2.2]
      exact hr' _ (List.mem_of_getElem? hg)
    simp only
    rw [answerUr_spec ht htg]
    cases hn : NonPosted ty
    · exact ⟨d1, none, _, rfl, ⟨hnone, by unfold Dropped; rw [hn]; simp⟩, hbus⟩
    · simp only
      rw [assertCheck_ok (createUr_check _ _)]
      refine ⟨d1, none, _, rfl, ⟨hnone, ?_⟩, hbus⟩
      unfold Dropped
      rw [hn]
      simp only [if_true]
      exact ⟨_, createUr_isUr _ _, rfl⟩
  | some j =>
    obtain ⟨i, f1, hj, hi, hfor, hfirst⟩ := hr'
    obtain rfl : j = i := by omega
    obtain ⟨g, hg, hg2⟩ := hfn j
    cases hd : d.fns[j]? with
    | none => rw [hd, hi] at hg; cases hg
    | some f =>
      rw [hd, hi] at hg
      simp only [Option.map_some, Option.some.injEq] at hg
      have hforf : ForFn f.id f.bars tg := by rw [← (hg2 f).2.2, ← hg]; exact hfor
      obtain ⟨f2, es, he, hT⟩ := f1.upstreamRecv_spec ht hc (by
        rw [hg, (hg2 f).2.1]; exact hp f (List.mem_of_getElem? hd) hforf)
      simp only [hi, he]
      refine ⟨_, some j, es, rfl, ⟨f, hd, hforf, hT, ?_⟩, hbus⟩
      intro k' f' hk' hf'
      obtain ⟨g', hg', hg2'⟩ := hfn k'
      rw [hf'] at hg'
      rw [← (hg2' f').2.2]
      exact hfirst k' _ hk' hg'

/-! ### Completers -/

theorem matchBarFrom_offset {io : Bool} {addr : Nat} : ∀ (bars : List BarReg) (i r off : Nat),
    matchBarFrom io addr i bars = .ok (some (r, off)) → ∃ mask, off = andNot addr mask
  | [], i, r, off, h => by cases h
  | [b], i, r, off, h => by
    unfold matchBarFrom at h
    split at h
    · exact matchBarFrom_offset [] _ _ _ h
    · split at h
      · split at h
        · cases h; exact ⟨_, rfl⟩
        · exact matchBarFrom_offset [] _ _ _ h
      · split at h
        · cases h
        · split at h
          · cases h; exact ⟨_, rfl⟩
          · exact matchBarFrom_offset [] _ _ _ h
  | b :: b2 :: rest, i, r, off, h => by
    unfold matchBarFrom at h
    split at h
    · exact matchBarFrom_offset (b2 :: rest) _ _ _ h
    · split at h
      · split at h
        · cases h; exact ⟨_, rfl⟩
        · exact matchBarFrom_offset (b2 :: rest) _ _ _ h
      · split at h
        · simp only at h
          split at h
          · cases h; exact ⟨_, rfl⟩
          · exact matchBarFrom_offset rest _ _ _ h
        · split at h
          · cases h; exact ⟨_, rfl⟩
          · exact matchBarFrom_offset (b2 :: rest) _ _ _ h

theorem andNot_low_le (a m n : Nat) : andNot a m &&& n ≤ a &&& n := by
  have : andNot a m &&& n = (andNot a m &&& n) &&& (a &&& n) := by
    apply Nat.eq_of_testBit_eq; intro j
    simp only [Nat.testBit_and, andNot_testBit]
    cases a.testBit j <;> cases m.testBit j <;> cases n.testBit j <;> rfl
  rw [this]; exact Nat.and_le_right

theorem cplLoop_fields (c : CplCfg) (t : Tlp) (data : List UInt8) (dw bl : Nat) : ∀ (n m k a : Nat), dw - m = n →
    ∀ x ∈ cplLoop c t data dw bl m k a, x.requester_id = t.requester_id ∧ x.tag = t.tag ∧ x.completer_id = c.id := by
  intro n
  induction n using Nat.strongRecOn with
  | ind n ih =>
    intro m k a hn x hx
    unfold cplLoop at hx
    by_cases h : m < dw
    · rw [dif_pos h] at hx
      rcases List.mem_cons.1 hx with e | e
      · rw [e]; exact ⟨rfl, rfl, rfl⟩
      · have := c.chunk_pos (dw - m) a (by omega)
        exact ih _ (by omega) _ _ _ rfl x e
    · rw [dif_neg h] at hx; simp at hx

theorem memReadCpls_answers (c : CplCfg) (t : Tlp) (data : List UInt8) (hl : 0 < t.length) :
    memReadCpls c t data ≠ [] ∧ ∀ x ∈ memReadCpls c t data, x.requester_id = t.requester_id ∧ x.tag = t.tag ∧ x.completer_id = c.id := by
  refine ⟨?_, fun x hx => cplLoop_fields c t data _ _ _ 0 0 _ rfl x hx⟩
  unfold memReadCpls cplLoop
  rw [dif_pos hl]
  simp

theorem check_4k {t : Tlp} {ty : TlpType} (ht : t.fmtType = some ty) (hty : ty = .MEM_READ ∨ ty = .MEM_READ_64)
    (hc : t.check = .ok true) : t.length * 4 ≤ 0x1000 - (t.address &&& 0xfff) := by
  unfold Tlp.check at hc
  rw [ht] at hc
  rcases Nat.lt_or_ge (0x1000 - (t.address &&& 0xfff)) (t.length * 4) with hlt | hlt
  rotate_left
  · exact hlt
  rcases hty with e | e <;> subst e <;> simp [show t.length * 4 > 4096 - (t.address &&& 4095) by omega] at hc

theorem MemEp.handleMemRead_answers (e : MemEp) (t : Tlp) (ty : TlpType) (ht : t.fmtType = some ty) (hty : ty = .MEM_READ ∨ ty = .MEM_READ_64)
    (hc : t.check = .ok true) (hl : 0 < t.length) (hb : GoodBars e.bars)
    (hreg : ∀ r off, matchBar e.bars t.address = .ok (some (r, off)) → ∃ buf, e.regions[r]? = some (some buf)) :
    ∃ cpls, e.handleMemRead t = .ok cpls ∧ cpls ≠ [] ∧
      ∀ c ∈ cpls, c.requester_id = t.requester_id ∧ c.tag = t.tag ∧ c.completer_id = e.id := by
  obtain ⟨r, hr⟩ := hb t.address false
  unfold MemEp.handleMemRead
  rw [hr]
  cases r with
  | none => exact ⟨_, rfl, by simp, by simp [Tlp.createUr, Tlp.createCompletion]⟩
  | some hit =>
    obtain ⟨region, off⟩ := hit
    obtain ⟨buf, hbuf⟩ := hreg region off hr
    obtain ⟨mask, hmask⟩ := matchBarFrom_offset _ _ _ _ hr
    have h4 := check_4k ht hty hc
    have := andNot_low_le t.address mask 0xfff
    rw [← hmask] at this
    have hread : e.readRegion region off (t.length * 4) = .ok (buf.read off (t.length * 4)) := by
      unfold MemEp.readRegion; rw [hbuf]
    have hlim : ¬ t.length * 4 > 0x1000 - (off &&& 0xfff) := by omega
    obtain ⟨h1, h2⟩ := memReadCpls_answers e.cplCfg t (buf.read off (t.length * 4)) hl
    refine ⟨memReadCpls e.cplCfg t (buf.read off (t.length * 4)), ?_, h1, h2⟩
    simp only [bind, Except.bind, if_neg hlim, hread]

theorem Rc.handleMemRead_answers (c : CplCfg) (s : AddrSpace) (t : Tlp) (ty : TlpType) (ht : t.fmtType = some ty)
    (hty : ty = .MEM_READ ∨ ty = .MEM_READ_64) (hc : t.check = .ok true) (hl : 0 < t.length) :
    Rc.handleMemRead c s t ≠ [] ∧
      ∀ x ∈ Rc.handleMemRead c s t, x.requester_id = t.requester_id ∧ x.tag = t.tag ∧ x.completer_id = c.id := by
  have h4 := check_4k ht hty hc
  unfold Rc.handleMemRead
  split
  · exact ⟨by simp, by simp [Tlp.createUr, Tlp.createCompletion]⟩
  · rw [if_neg (by omega)]
    split
    · exact ⟨by simp, by simp [Tlp.createCa, Tlp.createCompletion]⟩
    · exact memReadCpls_answers c t _ hl

theorem MemEp.applyRuns_id (region base : Nat) (data : List UInt8) : ∀ (runs : List (Nat × Nat)) (e e' : MemEp),
    MemEp.applyRuns region base data runs e = .ok e' → e'.id = e.id
  | [], e, e', h => by cases h; rfl
  | (a, b) :: rest, e, e', h => by
    unfold MemEp.applyRuns at h
    cases hw : e.writeRegion region (base + a) (slice data a b) with
    | error x => rw [hw] at h; cases h
    | ok e1 =>
      rw [hw] at h
      have := MemEp.applyRuns_id region base data rest e1 e' h
      rw [this]
      unfold MemEp.writeRegion at hw
      split at hw
      · rename_i buf hbuf
        cases hb : buf.write (base + a) (slice data a b) with
        | error x => rw [hb] at hw; cases hw
        | ok b' => rw [hb] at hw; cases hw; rfl
      · cases hw

theorem io_one (e : MemEp) (s : AddrSpace) (pid : PcieId) (t : Tlp) (hl : t.length = 1) :
    (∃ x, Rc.handleIoRead pid s t = .ok [x] ∧ x.requester_id = t.requester_id ∧ x.tag = t.tag ∧ x.completer_id = pid) ∧
    (∃ s' x, Rc.handleIoWrite pid s t = .ok (s', [x]) ∧ x.requester_id = t.requester_id ∧ x.tag = t.tag ∧ x.completer_id = pid) ∧
    (∀ cpls, e.handleIoRead t = .ok cpls → ∃ x, cpls = [x] ∧ x.requester_id = t.requester_id ∧ x.tag = t.tag ∧ x.completer_id = e.id) ∧
    (∀ e' cpls, e.handleIoWrite t = .ok (e', cpls) →
      ∃ x, cpls = [x] ∧ x.requester_id = t.requester_id ∧ x.tag = t.tag ∧ x.completer_id = e'.id) := by
  refine ⟨?_, ?_, ?_, ?_⟩
  · unfold Rc.handleIoRead
    simp only [hl, ne_eq, not_true_eq_false, if_false]
    split
    · exact ⟨_, rfl, rfl, rfl, rfl⟩
    · split
      · exact ⟨_, rfl, rfl, rfl, rfl⟩
      · exact ⟨_, rfl, rfl, rfl, rfl⟩
  · unfold Rc.handleIoWrite
    simp only [hl, ne_eq, not_true_eq_false, if_false]
    split
    · exact ⟨_, _, rfl, rfl, rfl, rfl⟩
    · split
      · exact ⟨_, _, rfl, rfl, rfl, rfl⟩
      · exact ⟨_, _, rfl, rfl, rfl, rfl⟩
  · intro cpls h
    unfold MemEp.handleIoRead at h
    cases hm : matchBar e.bars t.address true with
    | error x => rw [hm] at h; cases h
    | ok r =>
      rw [hm] at h
      cases r with
      | none => cases h; exact ⟨_, rfl, rfl, rfl, rfl⟩
      | some hit =>
        obtain ⟨region, off⟩ := hit
        simp only [bind, Except.bind, hl, ne_eq, not_true_eq_false, if_false] at h
        cases hr : e.readRuns region off (ioRuns t) [0, 0, 0, 0] with
        | error x => rw [hr] at h; cases h
        | ok d => rw [hr] at h; cases h; exact ⟨_, rfl, rfl, rfl, rfl⟩
  · intro e' cpls h
    unfold MemEp.handleIoWrite at h
    cases hm : matchBar e.bars t.address true with
    | error x => rw [hm] at h; cases h
    | ok r =>
      rw [hm] at h
      cases r with
      | none => cases h; exact ⟨_, rfl, rfl, rfl, rfl⟩
      | some hit =>
        obtain ⟨region, off⟩ := hit
        simp only [bind, Except.bind, hl, ne_eq, not_true_eq_false, if_false] at h
        cases hr : MemEp.applyRuns region off t.data (ioRuns t) e with
        | error x => rw [hr] at h; cases h
        | ok d => rw [hr] at h; cases h; exact ⟨_, rfl, rfl, rfl, rfl⟩

/-! ### Switches -/

theorem Sw.route_spec {σ} (ports : List (SwPort σ)) (i : Nat) (hi : i < ports.length) {t : Tlp} {ty : TlpType} {tg : Target}
    (ht : t.fmtType = some ty) (htg : target t ty = some tg) (hb : ∀ p ∈ ports, GoodBars p.bridge.bars) :
    ∃ out, Sw.route ports i t = .ok out ∧
      match out with
      | .to j => j ≠ i ∧ ∃ p, ports[j]? = some p ∧ PortTakes p tg ∧
          ∀ j' p', j' < j → j' ≠ i → ports[j']? = some p' → ¬ PortTakes p' tg
      | .drop answers => (∀ j p, j ≠ i → ports[j]? = some p → ¬ PortTakes p tg) ∧
          if NonPosted ty then ∃ cpl, IsUr cpl t ports[i].bridge.id ∧ answers = [cpl] else answers = [] := by
  obtain ⟨r, hr, hr'⟩ := Sw.find_spec ht htg i ports 0 hb
  unfold Sw.route
  rw [hr]
  cases r with
  | some n =>
    obtain ⟨hn, j, p, e1, e2, e3, e4⟩ := hr'
    obtain rfl : n = j := by omega
    exact ⟨_, rfl, hn, p, e2, e3, fun j' p' h1 h2 h3 => e4 j' p' h1 h3 (by omega)⟩
  | none =>
    simp only
    rw [answerUr_spec ht htg]
    cases hnp : NonPosted ty
    · exact ⟨_, rfl, fun j p h1 h2 => hr' j p h2 (by omega), by simp⟩
    · simp only [List.getElem?_eq_getElem hi]
      refine ⟨_, rfl, fun j p h1 h2 => hr' j p h2 (by omega), ?_⟩
      simp only [if_true]
      exact ⟨_, createUr_isUr _ _, rfl⟩

theorem cfg0_check {t t' : Tlp} {ty : TlpType} (ht : t.fmtType = some ty) (hty : ty = .CFG_READ_1 ∨ ty = .CFG_WRITE_1)
    (hc : t.check = .ok true) (ht' : t'.fmtType = some (if ty = .CFG_READ_1 then .CFG_READ_0 else .CFG_WRITE_0))
    (hcopy : { t' with fmt := t.fmt, type := t.type } = t) : t'.check = .ok true := by
  have e1 : t'.length = t.length := by rw [← hcopy]
  have e2 : t'.data = t.data := by rw [← hcopy]
  have h1 := congrArg Prod.fst (fmtType_value ht)
  have h2 := congrArg Prod.fst (fmtType_value ht')
  simp only at h1 h2
  unfold Tlp.check at hc ⊢
  rw [ht] at hc
  rw [ht']
  rcases hty with e | e <;> subst e
  · simp only [if_true] at h2 ⊢
    simp [h2, TlpType.value, TlpType.THREE_DW_DATA, TlpType.FOUR_DW_DATA]
  · simp only [reduceCtorEq, if_false] at h2 ⊢
    rw [h2, e1, e2]
    rw [h1] at hc
    exact hc

end Pcie
