import Verif.Lemmas.CapHost
import Verif.Props.Caps
/-
C59: capabilities in the configuration space of a function, as the host sees them.
-/
namespace Pcie
open Spec

variable {S : Type} (beh behx : Nat → CapOps S)

/-- C59: `config_read` of any bytes of a registered capability returns these bytes of its registers, and changes nothing. -/
theorem C59_read (f : Cfg.Fn (Fn (CapSpace S))) (tag : Tlp → Nat) (dev : PcieId) (hdev : dev.device = f.id.device ∧ dev.function = f.id.function)
    (hs : NoShare f.regs.common.caps.pci) (c : Nat) (hc : Lies f.regs.common.caps.pci c 16 64)
    (hown : ∀ k, (beh c).read (f.regs.common.caps.st c) k < 2 ^ 32) (j n : Nat) (hj : j + n ≤ 4 * f.regs.common.caps.pci.len c) :
    ∃ f' bytes, Cfg.read (Cfg.Fn.op (Fn.ops (CapSpace.ops beh behx)) tag) f dev (4 * f.regs.common.caps.pci.off c + j) n = .ok (f', bytes) ∧
      Holds (bytesOf (shown f.regs.common.caps.pci c ((beh c).read (f.regs.common.caps.st c)))) j n bytes ∧ f'.regs = f.regs := by
  have hlo := hc.lo
  have hhi := hc.hi
  have hrd : ∀ k, k < f.regs.common.caps.pci.len c → (Fn.ops (CapSpace.ops beh behx)).read f.regs (f.regs.common.caps.pci.off c + k) =
      shown f.regs.common.caps.pci c ((beh c).read (f.regs.common.caps.st c)) k := by
    intro k hk
    rw [Fn.read_caps _ _ _ (by omega) (by omega), CapSpace.read_shown beh behx hs hc hk]
  obtain ⟨f', b, e1, e2, e3, -⟩ := Cfg.fn_read (Fn.ops (CapSpace.ops beh behx)) f tag dev (4 * f.regs.common.caps.pci.off c + j) n hdev (by
    intro a h1 h2
    rw [show a / 4 = f.regs.common.caps.pci.off c + (a / 4 - f.regs.common.caps.pci.off c) by omega, hrd _ (by omega)]
    exact shown_lt _ _ _ _ (hown _))
  refine ⟨f', b, e1, ⟨e2.1, fun i hi => ?_⟩, e3⟩
  have hl := e2.1
  rw [e2.2 i hi]
  unfold cfgBytes bytesOf
  rw [show (4 * f.regs.common.caps.pci.off c + j + i) / 4 = f.regs.common.caps.pci.off c + (j + i) / 4 by omega, hrd _ (by omega),
    show (4 * f.regs.common.caps.pci.off c + j + i) % 4 = (j + i) % 4 by omega]

/-- C59: the same for extended capabilities. -/
theorem C59_read_ext (f : Cfg.Fn (Fn (CapSpace S))) (tag : Tlp → Nat) (dev : PcieId) (hdev : dev.device = f.id.device ∧ dev.function = f.id.function)
    (hs : NoShare f.regs.common.caps.ext) (c : Nat) (hc : Lies f.regs.common.caps.ext c 64 1024)
    (hown : ∀ k, (behx c).read (f.regs.common.caps.stx c) k < 2 ^ 32) (j n : Nat) (hj : j + n ≤ 4 * f.regs.common.caps.ext.len c) :
    ∃ f' bytes, Cfg.read (Cfg.Fn.op (Fn.ops (CapSpace.ops beh behx)) tag) f dev (4 * f.regs.common.caps.ext.off c + j) n = .ok (f', bytes) ∧
      Holds (bytesOf (shownExt f.regs.common.caps.ext c ((behx c).read (f.regs.common.caps.stx c)))) j n bytes ∧ f'.regs = f.regs := by
  have hlo := hc.lo
  have hhi := hc.hi
  have hrd : ∀ k, k < f.regs.common.caps.ext.len c → (Fn.ops (CapSpace.ops beh behx)).read f.regs (f.regs.common.caps.ext.off c + k) =
      shownExt f.regs.common.caps.ext c ((behx c).read (f.regs.common.caps.stx c)) k := by
    intro k hk
    rw [Fn.read_caps _ _ _ (by omega) (by omega), CapSpace.readExt_shown beh behx hs hc hk]
  obtain ⟨f', b, e1, e2, e3, -⟩ := Cfg.fn_read (Fn.ops (CapSpace.ops beh behx)) f tag dev (4 * f.regs.common.caps.ext.off c + j) n hdev (by
    intro a h1 h2
    rw [show a / 4 = f.regs.common.caps.ext.off c + (a / 4 - f.regs.common.caps.ext.off c) by omega, hrd _ (by omega)]
    exact shownExt_lt _ _ _ _ (hown _))
  refine ⟨f', b, e1, ⟨e2.1, fun i hi => ?_⟩, e3⟩
  have hl := e2.1
  rw [e2.2 i hi]
  unfold cfgBytes bytesOf
  rw [show (4 * f.regs.common.caps.ext.off c + j + i) / 4 = f.regs.common.caps.ext.off c + (j + i) / 4 by omega, hrd _ (by omega),
    show (4 * f.regs.common.caps.ext.off c + j + i) % 4 = (j + i) % 4 by omega]

/-- C59: `config_write` to bytes of a registered capability has the effect that it has on this capability on its own, at address 0, and changes nothing else in
the function: no other capability and no other register. -/
theorem C59_write (f : Cfg.Fn (Fn (CapSpace S))) (tag : Tlp → Nat) (dev : PcieId) (hdev : dev.device = f.id.device ∧ dev.function = f.id.function)
    (hs : NoShare f.regs.common.caps.pci) (c : Nat) (hc : Lies f.regs.common.caps.pci c 16 64) (j : Nat) (data : List UInt8)
    (hj : j + data.length ≤ 4 * f.regs.common.caps.pci.len c) :
    (Cfg.write (Cfg.Fn.op (Fn.ops (CapSpace.ops beh behx)) tag) f dev (4 * f.regs.common.caps.pci.off c + j) data).regs =
      withCap f.regs c (Cfg.write (Cfg.Fn.op (beh c) tag) ⟨f.id, f.regs.common.caps.st c⟩ dev j data).regs := by
  have hlo := hc.lo
  have hhi := hc.hi
  obtain ⟨id', s', e1, e2⟩ := Cfg.write_window (beh c) (Fn.ops (CapSpace.ops beh behx)) tag (f.regs.common.caps.pci.off c) (f.regs.common.caps.pci.len c)
    (withCap f.regs c) (by
      intro s k d m hk
      rw [Fn.write_caps _ _ _ _ _ (by omega) (by omega), withCap_eq, withCap_eq, common_putCaps, putCaps_putCaps]
      congr 1
      show CapSpace.write _ _ _ _ _ _ = _
      unfold CapSpace.write CapSpace.writeList
      rw [if_pos (by omega)]
      simp only
      rw [CapList.find_of_noShare hs hc.mem (by omega) (by omega)]
      simp only [if_true, Nat.add_sub_cancel_left]
      congr 1
      funext i
      split <;> rfl) dev data 0 j (by omega) (by omega) f.id (f.regs.common.caps.st c) hdev
  rw [withCap_self] at e2
  have e1' : Cfg.write (Cfg.Fn.op (beh c) tag) ⟨f.id, f.regs.common.caps.st c⟩ dev j data = ⟨id', s'⟩ := e1
  have e2' : Cfg.write (Cfg.Fn.op (Fn.ops (CapSpace.ops beh behx)) tag) f dev (4 * f.regs.common.caps.pci.off c + j) data = ⟨id', withCap f.regs c s'⟩ := e2
  rw [e1', e2']

/-- C59: the same for extended capabilities. -/
theorem C59_write_ext (f : Cfg.Fn (Fn (CapSpace S))) (tag : Tlp → Nat) (dev : PcieId) (hdev : dev.device = f.id.device ∧ dev.function = f.id.function)
    (hs : NoShare f.regs.common.caps.ext) (c : Nat) (hc : Lies f.regs.common.caps.ext c 64 1024) (j : Nat) (data : List UInt8)
    (hj : j + data.length ≤ 4 * f.regs.common.caps.ext.len c) :
    (Cfg.write (Cfg.Fn.op (Fn.ops (CapSpace.ops beh behx)) tag) f dev (4 * f.regs.common.caps.ext.off c + j) data).regs =
      withExt f.regs c (Cfg.write (Cfg.Fn.op (behx c) tag) ⟨f.id, f.regs.common.caps.stx c⟩ dev j data).regs := by
  have hlo := hc.lo
  have hhi := hc.hi
  obtain ⟨id', s', e1, e2⟩ := Cfg.write_window (behx c) (Fn.ops (CapSpace.ops beh behx)) tag (f.regs.common.caps.ext.off c) (f.regs.common.caps.ext.len c)
    (withExt f.regs c) (by
      intro s k d m hk
      rw [Fn.write_caps _ _ _ _ _ (by omega) (by omega), withExt_eq, withExt_eq, common_putCaps, putCaps_putCaps]
      congr 1
      show CapSpace.write _ _ _ _ _ _ = _
      unfold CapSpace.write CapSpace.writeList
      rw [if_neg (by omega)]
      simp only
      rw [CapList.find_of_noShare hs hc.mem (by omega) (by omega)]
      simp only [if_true, Nat.add_sub_cancel_left]
      congr 1
      funext i
      split <;> rfl) dev data 0 j (by omega) (by omega) f.id (f.regs.common.caps.stx c) hdev
  rw [withExt_self] at e2
  have e1' : Cfg.write (Cfg.Fn.op (behx c) tag) ⟨f.id, f.regs.common.caps.stx c⟩ dev j data = ⟨id', s'⟩ := e1
  have e2' : Cfg.write (Cfg.Fn.op (Fn.ops (CapSpace.ops beh behx)) tag) f dev (4 * f.regs.common.caps.ext.off c + j) data = ⟨id', withExt f.regs c s'⟩ := e2
  rw [e1', e2']

/-- C59: the content of a capability shows in no register but its own: whatever it is changed to, every register that the capability does not occupy reads as
before. -/
theorem C59_apart (x : Fn (CapSpace S)) (c reg : Nat) (v : S) (h : ¬ (reg < 64 ∧ Occupies x.common.caps.pci c reg)) :
    (Fn.ops (CapSpace.ops beh behx)).read (withCap x c v) reg = (Fn.ops (CapSpace.ops beh behx)).read x reg := by
  rw [withCap_eq]
  by_cases hr : 16 ≤ reg ∧ reg < 1024
  · rw [Fn.read_caps _ _ _ hr.1 hr.2, Fn.read_caps _ _ _ hr.1 hr.2, common_putCaps]
    show CapSpace.read _ _ _ _ = CapSpace.read _ _ _ _
    unfold CapSpace.read
    split
    · next h64 =>
      unfold CapList.read
      rw [CapSpace.fill_find, CapSpace.fill_find]
      cases hf : x.common.caps.pci.findByReg reg with
      | none => rfl
      | some d =>
        have hne : d ≠ c := by rintro rfl; exact h ⟨h64, CapSpace.find_occ hf⟩
        simp only [CapSpace.fill, CapList.off, hne, if_false]
        rfl
    · rfl
  · exact Fn.read_putCaps _ _ _ _ (by omega)

/-- C59: the same for extended capabilities. -/
theorem C59_apart_ext (x : Fn (CapSpace S)) (c reg : Nat) (v : S) (h : ¬ (64 ≤ reg ∧ Occupies x.common.caps.ext c reg)) :
    (Fn.ops (CapSpace.ops beh behx)).read (withExt x c v) reg = (Fn.ops (CapSpace.ops beh behx)).read x reg := by
  rw [withExt_eq]
  by_cases hr : 16 ≤ reg ∧ reg < 1024
  · rw [Fn.read_caps _ _ _ hr.1 hr.2, Fn.read_caps _ _ _ hr.1 hr.2, common_putCaps]
    show CapSpace.read _ _ _ _ = CapSpace.read _ _ _ _
    unfold CapSpace.read
    split
    · rfl
    · next h64 =>
      unfold CapList.readExt
      rw [CapSpace.fill_find, CapSpace.fill_find]
      cases hf : x.common.caps.ext.findByReg reg with
      | none => rfl
      | some d =>
        have hne : d ≠ c := by rintro rfl; exact h ⟨by omega, CapSpace.find_occ hf⟩
        simp only [CapSpace.fill, CapList.off, hne, if_false]
        rfl
  · exact Fn.read_putCaps _ _ _ _ (by omega)

/-- C59: a register from 16 on that no capability of its part of the configuration space occupies reads as zero, and writing it has no effect. -/
theorem C59_unused (x : Fn (CapSpace S)) (reg data mask : Nat) (h16 : 16 ≤ reg) (h1024 : reg < 1024)
    (h : ∀ c, ¬ Occupies (if reg < 64 then x.common.caps.pci else x.common.caps.ext) c reg) :
    (Fn.ops (CapSpace.ops beh behx)).read x reg = 0 ∧ (Fn.ops (CapSpace.ops beh behx)).write x reg data mask = x := by
  rw [Fn.read_caps _ _ _ h16 h1024, Fn.write_caps _ _ _ _ _ h16 h1024]
  have key : (CapSpace.ops beh behx).write x.common.caps reg data mask = x.common.caps := by
    show CapSpace.write _ _ _ _ _ _ = _
    unfold CapSpace.write CapSpace.writeList
    split
    · next h64 => rw [if_pos h64] at h; rw [CapSpace.find_none h]
    · next h64 => rw [if_neg h64] at h; rw [CapSpace.find_none h]
  refine ⟨?_, by rw [key, putCaps_self]⟩
  show CapSpace.read _ _ _ _ = 0
  unfold CapSpace.read
  split
  · next h64 => rw [if_pos h64] at h; unfold CapList.read; rw [CapSpace.fill_find, CapSpace.find_none h]
  · next h64 => rw [if_neg h64] at h; unfold CapList.readExt; rw [CapSpace.fill_find, CapSpace.find_none h]

/-- C59: after any registrations, the host, which only reads configuration space, finds every registered capability, once each, with its ID and the address of its
registers, in the order of the addresses. The offsets have to be within the part of the configuration space that is for capabilities. -/
theorem C59_walk (f : Cfg.Fn (Fn (CapSpace S))) (tag : Tlp → Nat) (dev : PcieId) (hdev : dev.device = f.id.device ∧ dev.function = f.id.function)
    {f0 : FnCaps} (h : NewFn f0) (calls : List CapOp) (ho : RegisterOnly calls) (hs : NoShare (after f0.caps calls))
    (hcaps : f.regs.common.caps.pci = after f0.caps calls) (hptr : f.regs.common.capPtr = (calls.foldl FnCaps.run f0).ptr)
    (hoff : ∀ c, Registered calls c → 16 ≤ (after f0.caps calls).off c ∧ (after f0.caps calls).off c < 64)
    (hown : ∀ c, (beh c).read (f.regs.common.caps.st c) 0 < 2 ^ 32) :
    ∃ seen, Complete (after f0.caps calls) calls seen ∧ ∀ fuel ≥ seen.length,
      ∃ f', HostCaps.walk (Cfg.Fn.op (Fn.ops (CapSpace.ops beh behx)) tag) dev fuel f =
        .ok (f', seen.map fun c => ((f0.caps.objs c).capId % 2 ^ 8, 4 * (after f0.caps calls).off c)) ∧ f'.regs = f.regs := by
  have hi := CapList.after_weak h.caps calls
  have hc := CapList.complete_of h.caps calls hs
  refine ⟨(after f0.caps calls).list, hc, fun fuel hf => ?_⟩
  have hp := CapList.run_ptr calls f0 (by rw [h.ptr, h.caps.empty]; rfl) ho
  rw [CapList.run_caps] at hp
  have hclean : CapList.Clean (after f0.caps calls) :=
    CapList.clean_after calls (CapList.inv_new h.caps 1 1 ⟨Nat.one_dvd _, fun _ => Nat.one_dvd _⟩) (fun _ => h.next) ho
  have hch := CapList.chained_of_clean (CapList.built_after calls (CapList.build_nil h.caps.empty)) hi.nodup hclean
  have hoff' : ∀ c ∈ (after f0.caps calls).list, 16 ≤ (after f0.caps calls).off c ∧ (after f0.caps calls).off c < 64 := fun c hm => hoff c ((hc.all c).1 hm)
  obtain ⟨n, hn, hn64⟩ := CapList.ptrTo_lt (s := after f0.caps calls) (N := 64) (by decide) (l := (after f0.caps calls).list)
    (fun c hm => by have := hoff' c hm; omega)
  have hrd : (Fn.ops (CapSpace.ops beh behx)).read f.regs 13 = n * 4 := by
    have e : f.regs.common.capPtr = n * 4 := by rw [hptr, hp, hn]
    cases hx : f.regs with
    | ep g =>
      rw [hx] at e
      show g.capPtr &&& 0xff = n * 4
      rw [show g.capPtr = n * 4 from e]
      exact (by decide +kernel : ∀ n < 64, n * 4 &&& 0xff = n * 4) n hn64
    | br p g =>
      rw [hx] at e
      exact e
  obtain ⟨f1, bytes, e1, e2, e3⟩ := read_at (ops := Fn.ops (CapSpace.ops beh behx)) tag dev f ⟨rfl, hdev.1, hdev.2⟩ 0x34 1 (by
    intro a h1 h2
    rw [show a / 4 = 13 by omega, hrd]; omega)
  obtain ⟨f2, i1, i2, -⟩ := host_walk_chained beh behx tag dev (by rw [hcaps]; exact hs) (by rw [hcaps]; exact hi.len) hown (after f0.caps calls).list (fuel := fuel)
    f1 e3 (by rw [hcaps]; exact fun c hc => hc) (by rw [hcaps]; exact hoff') (by rw [hcaps]; exact hch) hf
  refine ⟨f2, ?_, i2⟩
  have hb : bytes = [UInt8.ofNat (n * 4)] := by
    obtain ⟨h1, h2⟩ := e2
    match bytes, h1 with
    | [b], _ =>
      have := h2 0 (by simp)
      simp only [cfgBytes, List.getElem_cons_zero] at this
      rw [this, show (0x34 + 0) / 4 = 13 by decide, hrd]
      simp
  unfold HostCaps.walk
  rw [e1, hb]
  simp only
  rw [byte0, and_fc, show n * 4 % 256 / 4 * 4 = n * 4 by omega, ← hn]
  rw [hcaps] at i1
  rw [i1]
  congr 2
  apply List.map_congr_left
  intro c _
  rw [((CapList.keep_after calls f0.caps).2 c).1]

/-- C59: the same for extended capabilities, of which one has to be at register 0x40, where the host begins (the first automatic placement is there), and whose IDs
must not be zero. -/
theorem C59_walk_ext (f : Cfg.Fn (Fn (CapSpace S))) (tag : Tlp → Nat) (dev : PcieId) (hdev : dev.device = f.id.device ∧ dev.function = f.id.function)
    {l : CapList} (h : New l) (hnext : ∀ k, (l.objs k).next = 0) (calls : List CapOp) (ho : RegisterOnly calls) (hs : NoShare (after l calls))
    (hcaps : f.regs.common.caps.ext = after l calls)
    (hoff : ∀ c, Registered calls c → 64 ≤ (after l calls).off c ∧ (after l calls).off c < 1024)
    (hfst : ∃ c, Registered calls c ∧ (after l calls).off c = 0x40) (hid : ∀ c, (l.objs c).capId % 2 ^ 16 ≠ 0)
    (hown : ∀ c, (behx c).read (f.regs.common.caps.stx c) 0 < 2 ^ 32) :
    ∃ seen, Complete (after l calls) calls seen ∧ ∀ fuel ≥ seen.length,
      ∃ f', HostCaps.walkExt (Cfg.Fn.op (Fn.ops (CapSpace.ops beh behx)) tag) dev fuel f =
        .ok (f', seen.map fun c => ((l.objs c).capId % 2 ^ 16, 4 * (after l calls).off c)) ∧ f'.regs = f.regs := by
  have hi := CapList.after_weak h calls
  have hc := CapList.complete_of h calls hs
  refine ⟨(after l calls).list, hc, fun fuel hf => ?_⟩
  have hclean : CapList.Clean (after l calls) :=
    CapList.clean_after calls (CapList.inv_new h 1 1 ⟨Nat.one_dvd _, fun _ => Nat.one_dvd _⟩) (fun _ => hnext) ho
  have hch := CapList.chained_of_clean (CapList.built_after calls (CapList.build_nil h.empty)) hi.nodup hclean
  have hoff' : ∀ c ∈ (after l calls).list, 64 ≤ (after l calls).off c ∧ (after l calls).off c < 1024 := fun c hm => hoff c ((hc.all c).1 hm)
  have hfirst : 0x100 = CapList.ptrTo (after l calls) (after l calls).list := by
    obtain ⟨c, hr, hoc⟩ := hfst
    have hm := (hc.all c).2 hr
    have hord := hc.order
    cases hl : (after l calls).list with
    | nil => rw [hl] at hm; simp at hm
    | cons a l' =>
      rw [hl] at hm hord
      have ha := (hoff a ((hc.all a).1 (by simp [hl]))).1
      rcases List.mem_cons.1 hm with e | e
      · subst e; simp only [CapList.ptrTo, hoc]
      · have := (List.pairwise_cons.1 hord).1 c e
        omega
  obtain ⟨f2, i1, i2, -⟩ := host_walkExt_chained beh behx tag dev (by rw [hcaps]; exact hs) (by rw [hcaps]; exact hi.len) hown (after l calls).list (fuel := fuel)
    f ⟨rfl, hdev.1, hdev.2⟩ (by rw [hcaps]; exact fun c hc => hc) (by rw [hcaps]; exact hoff')
    (by rw [hcaps]; intro c _; rw [((CapList.keep_after calls l).2 c).1]; exact hid c) (by rw [hcaps]; exact hch) hf
  refine ⟨f2, ?_, i2⟩
  unfold HostCaps.walkExt
  rw [hcaps] at i1
  rw [hfirst, i1]
  congr 2
  apply List.map_congr_left
  intro c _
  rw [((CapList.keep_after calls l).2 c).1]

/-- The entry that the host finds for an ID in what `C59_walk` says it has found. -/
theorem offset_first {s : CapList} {calls : List CapOp} {seen : List Nat} (hc : Complete s calls seen) (id : Nat → Nat) {c : Nat} (hr : Registered calls c)
    (hfirst : ∀ d, Registered calls d → id d = id c → s.off c ≤ s.off d) :
    HostCaps.offset (seen.map fun c => (id c, 4 * s.off c)) (id c) = some (4 * s.off c) := by
  have hm := (hc.all c).2 hr
  have hreg : ∀ d ∈ seen, Registered calls d := fun d hd => (hc.all d).1 hd
  have hord := hc.order
  clear hc
  unfold HostCaps.offset
  induction seen with
  | nil => simp at hm
  | cons d l ih =>
    rw [List.map_cons, List.find?_cons]
    by_cases hd : id d = id c
    · simp only [hd, decide_true, Option.map_some, Option.some.injEq]
      have h1 := hfirst d (hreg d (by simp)) hd
      rcases List.mem_cons.1 hm with e | e
      · rw [e]
      · have := (List.pairwise_cons.1 hord).1 c e
        omega
    · simp only [hd, decide_false]
      refine ih ?_ (fun d hd => hreg d (by simp [hd])) (List.pairwise_cons.1 hord).2
      rcases List.mem_cons.1 hm with e | e
      · exact absurd (by rw [e]) hd
      · exact e

/-- C59: `capability_read` with what the host has found: it reads the registers of the capability with this ID; of several, of the one with the lowest address. -/
theorem C59_by_id (f : Cfg.Fn (Fn (CapSpace S))) (tag : Tlp → Nat) (dev : PcieId) (hdev : dev.device = f.id.device ∧ dev.function = f.id.function)
    (calls : List CapOp) (hs : NoShare f.regs.common.caps.pci) (seen : List Nat) (hseen : Complete f.regs.common.caps.pci calls seen)
    (id : Nat → Nat) (c : Nat) (hr : Registered calls c) (hfirst : ∀ d, Registered calls d → id d = id c → f.regs.common.caps.pci.off c ≤ f.regs.common.caps.pci.off d)
    (hc : Lies f.regs.common.caps.pci c 16 64) (hown : ∀ k, (beh c).read (f.regs.common.caps.st c) k < 2 ^ 32) (j n : Nat)
    (hj : j + n ≤ 4 * f.regs.common.caps.pci.len c) :
    ∃ f' bytes, HostCaps.read (Cfg.Fn.op (Fn.ops (CapSpace.ops beh behx)) tag) f dev (seen.map fun c => (id c, 4 * f.regs.common.caps.pci.off c)) (id c) j n =
        .ok (f', bytes) ∧
      Holds (bytesOf (shown f.regs.common.caps.pci c ((beh c).read (f.regs.common.caps.st c)))) j n bytes ∧ f'.regs = f.regs := by
  have hlo := hc.lo
  unfold HostCaps.read
  rw [offset_first hseen id hr hfirst]
  simp only
  rw [if_neg (by omega), Nat.add_comm j]
  exact C59_read beh behx f tag dev hdev hs c hc hown j n hj

/-- C59: `capability_write` likewise. -/
theorem C59_write_by_id (f : Cfg.Fn (Fn (CapSpace S))) (tag : Tlp → Nat) (dev : PcieId) (hdev : dev.device = f.id.device ∧ dev.function = f.id.function)
    (calls : List CapOp) (hs : NoShare f.regs.common.caps.pci) (seen : List Nat) (hseen : Complete f.regs.common.caps.pci calls seen)
    (id : Nat → Nat) (c : Nat) (hr : Registered calls c) (hfirst : ∀ d, Registered calls d → id d = id c → f.regs.common.caps.pci.off c ≤ f.regs.common.caps.pci.off d)
    (hc : Lies f.regs.common.caps.pci c 16 64) (j : Nat) (data : List UInt8) (hj : j + data.length ≤ 4 * f.regs.common.caps.pci.len c) :
    ∃ f', HostCaps.write (Cfg.Fn.op (Fn.ops (CapSpace.ops beh behx)) tag) f dev (seen.map fun c => (id c, 4 * f.regs.common.caps.pci.off c)) (id c) j data = .ok f' ∧
      f'.regs = withCap f.regs c (Cfg.write (Cfg.Fn.op (beh c) tag) ⟨f.id, f.regs.common.caps.st c⟩ dev j data).regs := by
  have hlo := hc.lo
  unfold HostCaps.write
  rw [offset_first hseen id hr hfirst]
  simp only
  rw [if_neg (by omega), Nat.add_comm j]
  exact ⟨_, rfl, C59_write beh behx f tag dev hdev hs c hc j data hj⟩

/-- C59: an ID that no registered capability has is not found. -/
theorem C59_absent {W : Type} (op : Cfg.Op W) (w : W) (dev : PcieId) (s : CapList) (calls : List CapOp) (seen : List Nat) (hseen : Complete s calls seen)
    (id : Nat → Nat) (i : Nat) (hno : ∀ c, Registered calls c → id c ≠ i) (j n : Nat) (data : List UInt8) :
    HostCaps.read op w dev (seen.map fun c => (id c, 4 * s.off c)) i j n = .error "Capability not found" ∧
    HostCaps.write op w dev (seen.map fun c => (id c, 4 * s.off c)) i j data = .error "Capability not found" := by
  have h : HostCaps.offset (seen.map fun c => (id c, 4 * s.off c)) i = none := by
    unfold HostCaps.offset
    rw [Option.map_eq_none_iff, List.find?_eq_none]
    intro p hp
    obtain ⟨c, hc, rfl⟩ := List.mem_map.1 hp
    simpa using hno c ((hseen.all c).1 hc)
  unfold HostCaps.read HostCaps.write
  rw [h]
  exact ⟨rfl, rfl⟩

/-! ### An endpoint with the power management and the PCI Express capability, an extended capability, and one capability at an offset of the user's choice. -/

/-- The capabilities: 0 is power management, 1 PCI Express, 2 one of the user with ID 9 and three registers that hold what is written. -/
def exCapsObjs (k : Nat) : CapObj :=
  if k = 0 then { capId := 1, length := 2 } else if k = 1 then { capId := 0x10, length := 15 } else { capId := 9, length := 3 }
def exCapsNew : FnCaps := { caps := { objs := exCapsObjs } }
def exCapsCalls : List CapOp := [.register 0 none, .register 1 none, .register 2 (some 0x30)]
def exCapsDone : FnCaps := exCapsCalls.foldl FnCaps.run exCapsNew
def exExt : CapList := { start := 0x40, objs := fun _ => { capId := 1, ver := 2, length := 11 } }
def exExtCalls : List CapOp := [.register 0 none]

/-- What the capabilities of the example do. -/
def exBeh (k : Nat) : CapOps (Nat → Nat) :=
  if k = 2 then ⟨fun s r => s r % 2 ^ 32, fun s r d m => fun r' => if r' = r then byteMaskUpdate (s r) m d else s r'⟩ else ⟨fun _ r => r, fun s _ _ _ => s⟩

/-- The endpoint. -/
def exCapsFn : Cfg.Fn (Fn (CapSpace (Nat → Nat))) :=
  ⟨⟨0, 0, 0⟩, .ep { capPtr := exCapsDone.ptr, caps := ⟨exCapsDone.caps, after exExt exExtCalls, fun _ _ => 0, fun _ _ => 0⟩ }⟩

theorem exCapsNew_new : NewFn exCapsNew := by
  refine ⟨⟨rfl, fun k => ?_, fun k => ?_, by decide⟩, fun k => ?_, rfl⟩ <;> simp only [exCapsNew, exCapsObjs] <;> split <;> (try split) <;> simp

theorem exCaps_eq : exCapsFn.regs.common.caps.pci = after exCapsNew.caps exCapsCalls := CapList.run_caps _ _

theorem exCaps_offs : (after exCapsNew.caps exCapsCalls).list = [0, 1, 2] ∧ (after exCapsNew.caps exCapsCalls).off 0 = 0x10 ∧
    (after exCapsNew.caps exCapsCalls).off 1 = 0x12 ∧ (after exCapsNew.caps exCapsCalls).off 2 = 0x30 ∧
    (after exCapsNew.caps exCapsCalls).len 0 = 2 ∧ (after exCapsNew.caps exCapsCalls).len 1 = 15 ∧ (after exCapsNew.caps exCapsCalls).len 2 = 3 := by
  decide +kernel

theorem exCaps_noShare : NoShare (after exCapsNew.caps exCapsCalls) := by
  obtain ⟨h, o0, o1, o2, l0, l1, l2⟩ := exCaps_offs
  rintro a b r ⟨ha, ha1, ha2⟩ ⟨hb, hb1, hb2⟩
  rw [h] at ha hb
  simp at ha hb
  rcases ha with rfl | rfl | rfl <;> rcases hb with rfl | rfl | rfl <;> omega

/-- The endpoint meets the hypotheses of `C59_read`, `C59_write` and `C59_walk`. -/
example : NoShare exCapsFn.regs.common.caps.pci ∧ Lies exCapsFn.regs.common.caps.pci 2 16 64 ∧ RegisterOnly exCapsCalls ∧
    exCapsFn.regs.common.capPtr = (exCapsCalls.foldl FnCaps.run exCapsNew).ptr ∧
    (∀ c, Registered exCapsCalls c → 16 ≤ (after exCapsNew.caps exCapsCalls).off c ∧ (after exCapsNew.caps exCapsCalls).off c < 64) := by
  obtain ⟨h, o0, o1, o2, l0, l1, l2⟩ := exCaps_offs
  refine ⟨by rw [exCaps_eq]; exact exCaps_noShare, ?_, ?_, rfl, ?_⟩
  · rw [exCaps_eq]; exact ⟨by rw [h]; simp, by omega, by omega⟩
  · intro op hop; simp [exCapsCalls] at hop; rcases hop with h | h | h <;> exact ⟨_, _, h⟩
  · intro c hc
    have := (CapList.mem_registered exCapsNew_new.caps exCapsCalls c).2 hc
    rw [h] at this
    simp at this
    rcases this with rfl | rfl | rfl <;> omega

/-- What the host finds, and what it reads after a write to the third capability. -/
example : (HostCaps.walk (Cfg.Fn.op (Fn.ops (CapSpace.ops exBeh exBeh)) (fun _ => 0)) ⟨3, 0, 0⟩ 3 exCapsFn).toOption.map Prod.snd =
    some [(1, 0x40), (0x10, 0x48), (9, 0xc0)] := by decide +kernel
example : (HostCaps.walkExt (Cfg.Fn.op (Fn.ops (CapSpace.ops exBeh exBeh)) (fun _ => 0)) ⟨3, 0, 0⟩ 1 exCapsFn).toOption.map Prod.snd = some [(1, 0x100)] := by
  decide +kernel
example : (Cfg.read (Cfg.Fn.op (Fn.ops (CapSpace.ops exBeh exBeh)) (fun _ => 0))
    (Cfg.write (Cfg.Fn.op (Fn.ops (CapSpace.ops exBeh exBeh)) (fun _ => 0)) exCapsFn ⟨3, 0, 0⟩ 0xc6 [1, 2, 3]) ⟨3, 0, 0⟩ 0xc4 8).toOption.map Prod.snd =
    some [0, 0, 1, 2, 3, 0, 0, 0] := by decide +kernel

end Pcie
