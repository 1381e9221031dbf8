/- Assignment of addresses by the host, through configuration accesses. -/
import Verif.Lemmas.HostScan
import Verif.Lemmas.EnumTree2
namespace Pcie
open Spec Phys
variable {σ : Type}

/-- The devices of the host, the registers of the hierarchy, and the tree of the model of `assign_resources`. -/
inductive Matches : (m : Nat) → Phys σ → Host.Tree → Bus σ → Prop
  | nil {m} : Matches m .nil .nil .nil
  | ep {m d fn f rest p t b} : Describes ⟨m, d, fn⟩ (.ep f) p → f.headerLayout % 128 = 0 → Matches m rest t b →
      Matches m (.ep d fn f rest) (.fn p t) (.ep f p.bars b)
  | br {m d fn dsp f child rest p tc t bc b} : Describes ⟨m, d, fn⟩ (.br dsp f) p → f.headerLayout % 128 = 1 → BarsLt f.bars →
      Matches f.secBus child tc bc → Matches m rest t b → Matches m (.br d fn dsp f child rest) (.bridge p tc t) (.br f p.bars bc b)

theorem CfgProg.onFn_range {ops : CapOps σ} {tag : Tlp → Nat} {α : Type} {id : PcieId} {p : CfgProg α} {x x' : Fn σ} {a : α}
    (h : p.onFn ops tag id x = .ok (x', a)) : x'.range = x.range := by
  induction p generalizing x with
  | ret c => rw [CfgProg.onFn] at h; cases h; rfl
  | raise e => cases h
  | rd id' addr len k ih =>
    rw [CfgProg.onFn] at h
    split at h
    · exact ih _ h
    · cases h
  | wr id' addr d k ih =>
    rw [CfgProg.onFn] at h
    split at h
    · rename_i hc; rw [ih h, hc.2.2.2]
    · cases h
  | dsp id k ih => cases h

theorem renum_of_range {dsp : Bool} {f f' : Br σ} (h : (Fn.br dsp f').range = (Fn.br dsp f).range) {p s u : Nat} (hf : f.renum p s u = f) :
    f'.renum p s u = f' ∧ f'.secBus = s ∧ f'.subBus = u := by
  simp only [Fn.range, Prod.mk.injEq] at h
  have h1 := congrArg Br.priBus hf
  have h2 := congrArg Br.secBus hf
  have h3 := congrArg Br.subBus hf
  simp only [Br.renum] at h1 h2 h3
  refine ⟨?_, by rw [h.1, ← h2], by rw [h.2.1, ← h3]⟩
  unfold Br.renum
  rw [show p = f'.priBus by rw [h.2.2, ← h1], show s = f'.secBus by rw [h.1, ← h2], show u = f'.subBus by rw [h.2.1, ← h3]]

section
variable {ops : CapOps σ} {tag : Tlp → Nat} {host : BrFn σ}

theorem assignDev_ep {id : PcieId} {f f1 : Ep σ} {p : Host.Device} {d1 : DevBars} {l l1 : Limits} (hp : Describes id (.ep f) p)
    (ht : f.headerLayout % 128 = 0) (h : assignBars (Ep.regs ops) 6 12 f p.bars l = .ok (f1, d1, l1)) :
    (Host.assignDev p l).onFn ops tag id (.ep f) = .ok (.ep f1, { p with bars := d1 }, l1) ∧ f1.ident = f.ident := by
  obtain ⟨q1, q2⟩ := assignBars_on (tag := tag) (emb_ep ops f.ident) id 6 12 f p.bars l rfl (.inr (.inr rfl)) (fun i hi => .inr (.inl ⟨by omega, by omega⟩))
  refine ⟨?_, q2 _ _ h⟩
  unfold Host.assignDev
  rw [if_pos (show p.headerType = 0 from hp.header.trans ht), hp.id, CfgProg.onFn_bind, q1, h]
  rfl

theorem assignDev_br {id : PcieId} {dsp : Bool} {f f1 : Br σ} {p : Host.Device} {d1 : DevBars} {l l1 : Limits} (hp : Describes id (.br dsp f) p)
    (ht : f.headerLayout % 128 = 1) (hb : BarsLt f.bars) (h : assignBars (Br.regs ops) 2 14 f p.bars l = .ok (f1, d1, l1)) :
    (Host.assignDev p l).onFn ops tag id (.br dsp f) = .ok (.br dsp f1, { p with bars := d1 }, l1) ∧ BarsLt f1.bars ∧ f1.toCommon.ident = f.toCommon.ident := by
  obtain ⟨q1, q2⟩ := assignBars_on (tag := tag) (emb_br ops dsp f.toCommon.ident) id 2 14 f p.bars l ⟨hb, rfl⟩ (.inr (.inr (.inr (.inr rfl)))) (fun i hi => by
    have : i = 0 ∨ i = 1 := by omega
    rcases this with rfl | rfl
    · exact .inr (.inl rfl)
    · exact .inr (.inr (.inl rfl)))
  refine ⟨?_, q2 _ _ h⟩
  unfold Host.assignDev
  have h1 : p.headerType = 1 := hp.header.trans ht
  rw [if_neg (by rw [h1]; decide), if_pos h1, hp.id, CfgProg.onFn_bind, q1, h]
  rfl

theorem ident_hdr {a b : Common σ} (h : a.ident = b.ident) : a.headerLayout = b.headerLayout := by
  simp only [Common.ident, Prod.mk.injEq] at h
  exact h.2.2.2.2.1

theorem assign_tr (hh : CfgHost host) {m : Nat} {R : Phys σ} {tree : Host.Tree} {bus : Bus σ} (hM : Matches m R tree bus) :
    ∀ (C : List (Frame σ)) (L : Phys σ) (last U : Nat) (S : PcieId → Prop) (l l' : Limits) (bus' : Bus σ), Path C m U → m ≤ last → last + bridges R ≤ U → U ≤ 255 →
      numbered m last R = R → Below (last + 1) L → (top (L.app R)).Pairwise Before → SortedBelow R → (m = 0 → ∀ e ∈ top R, e.1 ≠ 0) →
      assignBus ops bus l = .ok (bus', l') →
      ∃ tree', Tr ops tag host (Host.assign tree l) (plug C (L.app R)) S (tree', l') (plug C (L.app (R.withRegs bus'))) S ∧
        Matches m (R.withRegs bus') tree' bus' ∧ numbered m last (R.withRegs bus') = R.withRegs bus' ∧ bridges (R.withRegs bus') = bridges R := by
  induction hM with
  | nil =>
    intro C L last U S l l' bus' hP hm hk hU hN hL hs hsb h0 h
    cases Except.ok.inj h
    exact ⟨.nil, Tr.pure, .nil, rfl, rfl⟩
  | @ep m d fn f rest p t b hD ht _ ih =>
    intro C L last U S l l' bus' hP hm hk hU hN hL hs hsb h0 h
    obtain ⟨f1, d1, l1, rest1, a1, a2, rfl⟩ := assignBus_ep h
    obtain ⟨q1, q2⟩ := assignDev_ep (tag := tag) hD ht a1
    simp only [numbered, Phys.ep.injEq, true_and] at hN
    have hkL : NoKey d fn L := fun e he hc => by
      rw [top_app, List.pairwise_append] at hs
      have := hs.2.2 e he (d, fn, .ep f) (by simp [top])
      simp only [Before] at this
      omega
    have hi : CfgId ⟨m, d, fn⟩ := ⟨by simp only [bridges] at hk; simp only; omega, fun he => by
      rw [PcieId.mk.injEq] at he
      exact h0 he.1 (d, fn, .ep f) (by simp [top]) he.2.1⟩
    have t1 := Tr.local hh hP (by simp only [bridges] at hk; omega) hkL hi q1 (c := .nil) (R := rest) (S := S)
    obtain ⟨tree', t2, m2, e2, g2⟩ := ih C (L.app (.ep d fn f1 .nil)) last U S l1 l' rest1 hP hm hk hU hN (by intro p hp; rw [brsOf_app] at hp; simp [brsOf] at hp; exact hL p hp)
      (by
        apply pairwise_map _ hs
        rw [app_assoc, top_app, top_app]; simp [top, app]) hsb (fun hz e he => h0 hz e (by simp [top, he])) a2
    rw [app_assoc, app_assoc] at t2
    refine ⟨.fn { p with bars := d1 } tree', ?_, ?_, by simp only [withRegs, numbered, e2], by simp only [withRegs, bridges, g2]⟩
    · rw [Host.assign]
      exact Tr.bind t1 (Tr.bind t2 Tr.pure)
    · have hh : f1.headerLayout = f.headerLayout := ident_hdr (congrArg Prod.fst q2)
      exact Matches.ep (p := { p with bars := d1 }) (Describes.bars (describes_congr.1 q2.symm hD) d1) (by rw [hh]; exact ht) m2
  | @br m d fn dsp f child rest p tc t bc b hD ht hb _ _ ihc ih =>
    intro C L last U S l l' bus' hP hm hk hU hN hL hs hsb h0 h
    obtain ⟨f1, d1, l1, child1, lc, f2, rest1, a1, a2, a3, a4, rfl⟩ := assignBus_br h
    obtain ⟨q1, q2, q3⟩ := assignDev_br (tag := tag) hD ht hb a1
    obtain ⟨s1, s2⟩ := setupBridge_on ops tag ⟨m, d, fn⟩ dsp f1 l1 lc.alignBridge ⟨q2, q3⟩
    obtain ⟨s3, s4⟩ := s2 _ a3
    rw [a3] at s1
    simp only [numbered, Phys.br.injEq, true_and] at hN
    simp only [bridges] at hk
    obtain ⟨n1, n2, n3⟩ := hN
    have hkL : NoKey d fn L := fun e he hc => by
      rw [top_app, List.pairwise_append] at hs
      have := hs.2.2 e he (d, fn, .br dsp f) (by simp [top])
      simp only [Before] at this
      omega
    have hi : CfgId ⟨m, d, fn⟩ := ⟨by simp only; omega, fun he => by
      rw [PcieId.mk.injEq] at he
      exact h0 he.1 (d, fn, .br dsp f) (by simp [top]) he.2.1⟩
    have hsec : f.secBus = last + 1 := congrArg Br.secBus n1.symm
    have t1 := Tr.local hh hP (by omega) hkL hi q1 (c := child) (R := rest) (S := S)
    obtain ⟨b1, b2, b3⟩ := renum_of_range (CfgProg.onFn_range q1) (p := m) (s := last + 1) (u := last + 1 + bridges child) n1
    obtain ⟨c1, c2, c3⟩ := renum_of_range (CfgProg.onFn_range s1) b1
    obtain ⟨tc', t2, m2, e2, g2⟩ := ihc (⟨L, d, fn, dsp, f1, rest⟩ :: C) .nil (last + 1) (last + 1 + bridges child) S l1 lc child1
      ⟨m, hP.mono (by omega), by omega, b2.trans hsec.symm, Nat.le_of_eq b3.symm, by rw [hsec]; exact hL⟩
      (by omega) (by omega) (by omega) (by rw [hsec]; exact n2) (by intro p hp; simp [brsOf] at hp) hsb.1 hsb.2.1 (by omega) a2
    simp only [plug, app] at t2
    have t3 := Tr.local hh hP (by omega) hkL hi s1 (c := child.withRegs child1) (R := rest) (S := S)
    obtain ⟨tr, t4, m4, e4, g4⟩ := ih C (L.app (.br d fn dsp f2 (child.withRegs child1) .nil)) (last + 1 + bridges child) U S lc.alignBridge l' rest1 hP (by omega) (by omega) hU n3
      (by
        intro p hp
        rw [brsOf_app] at hp
        rcases List.mem_append.1 hp with h | h
        · have := hL p h; omega
        · simp [brsOf] at h; rw [h]; simp only; omega)
      (by
        apply pairwise_map _ hs
        rw [app_assoc, top_app, top_app]; simp [top, app]) hsb.2.2 (fun hz e he => h0 hz e (by simp [top, he])) a4
    rw [app_assoc, app_assoc] at t4
    rw [hsec] at e2
    refine ⟨.bridge { p with bars := d1 } tc' tr, ?_, ?_, ?_, by simp only [withRegs, bridges, g2, g4]⟩
    rotate_left 2
    · simp only [withRegs, numbered, g2, e2, e4]
      exact congrArg (fun f => Phys.br d fn dsp f _ _) c1
    · rw [Host.assign]
      refine Tr.bind t1 (Tr.bind t2 ?_)
      simp only [hD.id]
      exact Tr.bind t3 (Tr.bind t4 Tr.pure)
    · have hh : f2.headerLayout = f.headerLayout := ident_hdr s4
      refine Matches.br (p := { p with bars := d1 }) (Describes.bars (describes_congr.2 s4.symm hD) d1) (by rw [hh]; exact ht) s3 ?_ m4
      rw [c2, ← hsec]
      exact m2

end

/-! ### From the scan to the assignment -/

theorem rdE_ident {ops : CapOps σ} {f : Ep σ} (h : GoodFn ops (.ep f)) : (rdE ops f).1.ident = f.ident := by
  obtain ⟨h1, ⟨f', d⟩, h2⟩ := h
  obtain ⟨p, -, -, -, h3⟩ := setupRegs_ep ops (fun _ => 0) ⟨0, 0, 0⟩ h1 h2
  unfold rdE
  rw [h2]
  exact h3

theorem rdB_ident {ops : CapOps σ} {dsp : Bool} {f : Br σ} (h : GoodFn ops (.br dsp f)) :
    (rdB ops f).1.toCommon.ident = f.toCommon.ident ∧ BarsLt (rdB ops f).1.bars := by
  obtain ⟨h1, hb, ⟨f', d⟩, h2⟩ := h
  obtain ⟨p, -, -, -, h3⟩ := setupRegs_br (dsp := dsp) ops (fun _ => 0) ⟨0, 0, 0⟩ h1 hb h2
  unfold rdB
  rw [h2]
  exact h3

/-- The BAR registers of all bridges hold 32 bits. -/
def BrBars : Phys σ → Prop
  | .nil => True
  | .ep _ _ _ rest => BrBars rest
  | .br _ _ _ f child rest => BarsLt f.bars ∧ BrBars child ∧ BrBars rest

theorem readBus_numbered (ops : CapOps σ) (R : Phys σ) : ∀ (n last : Nat) (b1 : Bus σ), readBus ops (numbered n last R).bus = .ok b1 → Typed R → BrBars R →
    Good ops R ∧ ∀ t, Rec ops n last R t → Matches n (numbered n last (rdAll ops R)) t b1 := by
  induction R with
  | nil =>
    intro n last b1 h _ _
    cases Except.ok.inj h
    refine ⟨trivial, fun t ht => ?_⟩
    cases t with
    | nil => exact .nil
    | fn p t => exact ht.elim
    | bridge p tc t => exact ht.elim
  | ep d fn f rest ih =>
    intro n last b1 h ht hb
    rw [numbered, Phys.bus, readBus.eq_def] at h
    simp only at h
    cases h1 : readBars (Ep.regs ops) 6 12 f {} with
    | error e => rw [h1] at h; cases h
    | ok r =>
      obtain ⟨f', dd⟩ := r
      rw [h1] at h
      simp only [ok_bind] at h
      cases h2 : readBus ops (numbered n last rest).bus with
      | error e => rw [h2] at h; cases h
      | ok b2 =>
        rw [h2] at h
        cases Except.ok.inj h
        obtain ⟨i1, i2⟩ := ih n last b2 h2 ht.2 hb
        have hg : GoodFn ops (.ep f) := ⟨ht.1, _, h1⟩
        have e : rdE ops f = (f', dd) := by unfold rdE; rw [h1]
        refine ⟨⟨hg, i1⟩, fun t hr => ?_⟩
        cases t with
        | nil => exact hr.elim
        | bridge p tc t => exact hr.elim
        | fn p t =>
          obtain ⟨r1, r2, r3⟩ := hr
          have hid := rdE_ident hg
          rw [e] at r2 hid
          simp only [rdAll, numbered, e]
          simp only at r2 hid
          rw [← r2]
          have hh : f'.headerLayout = f.headerLayout := ident_hdr (congrArg Prod.fst hid)
          exact .ep (describes_congr.1 hid.symm r1) (by rw [hh]; exact ht.1) (i2 t r3)
  | br d fn dsp f child rest ihc ih =>
    intro n last b1 h ht hb
    rw [numbered, Phys.bus, readBus.eq_def] at h
    simp only at h
    have hrn := readBars_renum ops n (last + 1) (last + 1 + bridges child) f {}
    rw [show ({ f with priBus := n, secBus := last + 1, subBus := last + 1 + bridges child } : Br σ) = f.renum n (last + 1) (last + 1 + bridges child) from rfl, hrn] at h
    cases h1 : readBars (Br.regs ops) 2 14 f {} with
    | error e => rw [h1] at h; cases h
    | ok r =>
      obtain ⟨f', dd⟩ := r
      rw [h1] at h
      simp only [mapRegs, ok_bind] at h
      cases hc : readBus ops (numbered (last + 1) (last + 1) child).bus with
      | error e => rw [hc] at h; cases h
      | ok bc =>
      rw [hc] at h
      simp only [ok_bind] at h
      cases h2 : readBus ops (numbered n (last + 1 + bridges child) rest).bus with
      | error e => rw [h2] at h; cases h
      | ok b2 =>
        rw [h2] at h
        cases Except.ok.inj h
        obtain ⟨c1, c2⟩ := ihc _ _ bc hc ht.2.1 hb.2.1
        obtain ⟨i1, i2⟩ := ih _ _ b2 h2 ht.2.2 hb.2.2
        have hg : GoodFn ops (.br dsp f) := ⟨ht.1, hb.1, _, h1⟩
        have e : rdB ops f = (f', dd) := by unfold rdB; rw [h1]
        refine ⟨⟨hg, c1, i1⟩, fun t hr => ?_⟩
        cases t with
        | nil => exact hr.elim
        | fn p t => exact hr.elim
        | bridge p tc t =>
          obtain ⟨r1, r2, r3, r4⟩ := hr
          have hid := rdB_ident hg
          rw [e] at r2 hid
          simp only [rdAll, numbered, e, bridges_rdAll]
          simp only at r2 hid
          rw [← r2]
          have hh : f'.headerLayout = f.headerLayout := ident_hdr hid.1
          have hid' : (f'.renum n (last + 1) (last + 1 + bridges child)).toCommon.ident = f.toCommon.ident := hid.1
          exact Matches.br (f := f'.renum n (last + 1) (last + 1 + bridges child)) (describes_congr.2 hid'.symm r1) (show f'.headerLayout % 128 = 1 by rw [hh]; exact ht.1) hid.2 (c2 tc r3) (i2 t r4)

theorem withRegs_rdAll (ops : CapOps σ) (R : Phys σ) : ∀ (n last : Nat) (m : Nat) (b : Bus σ) (t : Host.Tree),
    Matches m ((numbered n last (rdAll ops R)).withRegs b) t b → (numbered n last R).withRegs b = (numbered n last (rdAll ops R)).withRegs b := by
  induction R with
  | nil => intro n last m b t _; rfl
  | ep d fn f rest ih =>
    intro n last m b t h
    cases b with
    | nil => simp only [rdAll, numbered, withRegs] at h; cases h
    | br => simp only [rdAll, numbered, withRegs] at h; cases h
    | ep g dd b =>
      simp only [rdAll, numbered, withRegs] at h ⊢
      generalize hb : (numbered n last (rdAll ops rest)).withRegs b = x at h
      cases h with
      | ep _ _ h =>
        rw [← hb] at h ⊢
        rw [ih n last _ b _ h]
  | br d fn dsp f child rest ihc ih =>
    intro n last m b t h
    cases b with
    | nil => simp only [rdAll, numbered, withRegs] at h; cases h
    | ep => simp only [rdAll, numbered, withRegs] at h; cases h
    | br g dd bc b =>
      simp only [rdAll, numbered, withRegs, bridges_rdAll] at h ⊢
      generalize hb : (numbered n (last + 1 + bridges child) (rdAll ops rest)).withRegs b = x at h
      generalize hc : (numbered (last + 1) (last + 1) (rdAll ops child)).withRegs bc = y at h
      cases h with
      | br _ _ _ h1 h2 =>
        rw [← hb] at h2 ⊢
        rw [← hc] at h1 ⊢
        rw [ih _ _ _ b _ h2, ihc _ _ _ bc _ h1]

end Pcie
