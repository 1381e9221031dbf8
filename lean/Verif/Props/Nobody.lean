import Verif.Lemmas.Nobody
/-
C69, C70: reads by the host of addresses that no function of the hard IP has raise an exception at once: the hard IP answers them itself, and the user is not asked.
-/
namespace Pcie
open Spec

/-- C69: a read by the host that begins at an address in no window of any function is refused, whatever the user does. -/
theorem C69_nobody (d : UsDev) (chk : Bool) (wss : List (List Window)) (user : UsTlp → List UsTlp) (c : ReqCfg) (tag : Tlp → Nat) (addr length attr tc : Nat)
    (hn : Unclaimed d.fns false wss (addr / 4 * 4)) (hbm : c.busMasterEnable = true) (h0 : 0 < length) :
    Region.read c (d.answer chk user tag) addr length attr tc = .error "Unsuccessful completion" := by
  refine region_read_bad c _ addr length attr tc h0 hbm fun L hL => ?_
  obtain ⟨f1, -, -, f4, -⟩ := Region.readTlp_fields c attr tc false addr L hL
  obtain ⟨h1, h2⟩ := memRead_addressed addr
  exact us_nobody d chk user tag _ _ false wss f4 h1 h2 (f1 ▸ hn)

/-- C69: likewise for I/O reads. -/
theorem C69_io_nobody (d : UsDev) (chk : Bool) (wss : List (List Window)) (user : UsTlp → List UsTlp) (c : ReqCfg) (tag : Tlp → Nat) (addr length : Nat)
    (hn : Unclaimed d.fns true wss (addr / 4 * 4)) (hbm : c.busMasterEnable = true) (h0 : 0 < length) :
    IoRegion.read c (d.answer chk user tag) addr length = .error "Unsuccessful completion" := by
  refine io_read_bad c _ addr length h0 hbm fun L hL h4 => ?_
  obtain ⟨h1, h2, -⟩ := IoRegion.readTlp_ok c false addr L hL h4
  exact us_nobody d chk user tag _ .IO_READ true wss h1.type (.inl rfl) rfl (h2 ▸ hn)

/-- C70: a read by the host that begins at an address in no window of any function is refused, whatever the user does (Stratix 10 and P-Tile: for any kind of frames). -/
theorem C70_nobody {F : Type} (mk : Tlp → Nat → Nat → Py F) (conv : F → Py Tlp) (p : RxLimits) (s : IntelDev F) (wss : List (List Window)) (user : F → List F) (c : ReqCfg) (tag : Tlp → Nat)
    (addr length attr tc : Nat) (hn : Unclaimed s.dev.fns false wss (addr / 4 * 4)) (hbm : c.busMasterEnable = true) (h0 : 0 < length) :
    Region.read c (s.answer mk conv p user tag) addr length attr tc = .error "Unsuccessful completion" := by
  refine region_read_bad c _ addr length attr tc h0 hbm fun L hL => ?_
  obtain ⟨f1, -, -, f4, -⟩ := Region.readTlp_fields c attr tc false addr L hL
  obtain ⟨h1, h2⟩ := memRead_addressed addr
  exact intel_nobody mk conv p s user tag _ _ false wss f4 h1 h2 (f1 ▸ hn)

/-- C70: likewise for I/O reads. -/
theorem C70_io_nobody {F : Type} (mk : Tlp → Nat → Nat → Py F) (conv : F → Py Tlp) (p : RxLimits) (s : IntelDev F) (wss : List (List Window)) (user : F → List F) (c : ReqCfg) (tag : Tlp → Nat)
    (addr length : Nat) (hn : Unclaimed s.dev.fns true wss (addr / 4 * 4)) (hbm : c.busMasterEnable = true) (h0 : 0 < length) :
    IoRegion.read c (s.answer mk conv p user tag) addr length = .error "Unsuccessful completion" := by
  refine io_read_bad c _ addr length h0 hbm fun L hL h4 => ?_
  obtain ⟨h1, h2, -⟩ := IoRegion.readTlp_ok c false addr L hL h4
  exact intel_nobody mk conv p s user tag _ .IO_READ true wss h1.type (.inl rfl) rfl (h2 ▸ hn)

/-! ### The hypotheses can be met -/

/-- A function with an I/O window of 256 bytes at 0x1000. -/
private def oneIo : List RFn := [{ id := ⟨1, 0, 0⟩, bars := [⟨0x1001, 0xffffff00⟩, {}, {}, {}, {}, {}] }]

private theorem oneIo_unclaimed (io : Bool) (a : Nat) (h : io = false ∨ 0x1100 ≤ a) (ha : a < 2 ^ 32) : Unclaimed oneIo io [[⟨0, true, false, 0x1000, 8⟩]] a := by
  refine ⟨?_, by omega, .inl ha, ?_⟩
  · exact .cons ⟨.io _ _ _ _ _ _ (by decide) (.absent _ _ _ _ rfl (.absent _ _ _ _ rfl (.absent _ _ _ _ rfl (.absent _ _ _ _ rfl (.absent _ _ _ _ rfl (.nil _)))))), by decide⟩ .nil
  · rcases h with rfl | h
    · rfl
    · have : Window.contains ⟨0, true, false, 0x1000, 8⟩ a = false := by
        show decide (0x1000 ≤ a ∧ a < 0x1100) = false
        exact decide_eq_false (by omega)
      simp [claimant, this]

/-- A memory read at an address that is an I/O address, and an I/O read behind the window. -/
example (user : UsTlp → List UsTlp) := C69_nobody { bus := 1, fns := oneIo } true _ user {} (fun _ => 7) 0x1003 300 0 0 (oneIo_unclaimed _ _ (.inl rfl) (by omega)) rfl (by omega)
example (user : UsTlp → List UsTlp) := C69_io_nobody { bus := 1, fns := oneIo } true _ user {} (fun _ => 7) 0x1103 11 (oneIo_unclaimed _ _ (.inr (by omega)) (by omega)) rfl (by omega)
example (user : S10Frame → List S10Frame) := C70_nobody S10Frame.ofRx S10Frame.toTlp {} { dev := { bus := 1, fns := oneIo } } _ user {} (fun _ => 7) 0x1003 300 0 0
  (oneIo_unclaimed _ _ (.inl rfl) (by omega)) rfl (by omega)
example (user : PTileFrame → List PTileFrame) := C70_io_nobody PTileFrame.ofRx PTileFrame.toTlp {} { dev := { bus := 1, fns := oneIo } } _ user {} (fun _ => 7) 0x1103 11
  (oneIo_unclaimed _ _ (.inr (by omega)) (by omega)) rfl (by omega)

end Pcie
