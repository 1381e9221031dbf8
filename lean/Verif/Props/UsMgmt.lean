import Verif.Lemmas.UsMgmt
/-
C60: the configuration management port of the Xilinx models performs every requested access exactly once.
-/
namespace Pcie
open Spec
variable {σ : Type} (ops : CapOps σ)

/-- C60: for every user that keeps a request as it is until it is reported done, and whatever others do to the functions meanwhile: the accesses that take place are those asked for
at the clock edges at which `cfg_mgmt_read_write_done` is high, one for each, in the same order, with the function, register, data and byte enables that the user drives there, and with
`cfg_mgmt_read_data` equal to the value that was read. There is at most one more access, whose report the user has not seen yet. -/
theorem C60_exactly_once (usp : Bool) (fns : List (Fn σ)) (es : List (MgmtEv σ)) (s : Mgmt σ) (h : Mgmt.run ops usp { fns } es = .ok s)
    (hh : MgmtHeld (mgmtEdges s.hist)) :
    ∃ acc last, mgmtAccesses s.hist = acc ++ last ∧ List.Forall₂ (MgmtMatches usp) (mgmtAnswered s.hist) acc ∧
      last.length = if s.done then 1 else 0 := by
  have hi := Mgmt.run_inv ops usp es { fns } s ⟨fun _ _ => by simp [mgmtAnswered, mgmtAccesses, mgmtEdges], fun _ h => by simp at h, fun _ _ h => by simp at h⟩ h hh
  cases hst : s.st with
  | idle =>
    cases hd : s.done with
    | false => exact ⟨_, [], (List.append_nil _).symm, hi.idle hst hd, rfl⟩
    | true =>
      obtain ⟨acc, a, e, h1, h2, -⟩ := hi.done hst hd
      exact ⟨acc, [a], h1, h2, rfl⟩
  | busy i left =>
    obtain ⟨h1, h2, -⟩ := hi.busy i left hst
    exact ⟨_, [], (List.append_nil _).symm, h2, by simp [h1]⟩

/-- C60: for every user, even one that does not keep its requests: the functions are as they are after the recorded accesses and the changes by others, and a read returns the value of the
register at that moment. -/
theorem C60_effect (usp : Bool) (fns : List (Fn σ)) (es : List (MgmtEv σ)) (s : Mgmt σ) (h : Mgmt.run ops usp { fns } es = .ok s) :
    s.fns = mgmtReplay ops fns s.hist ∧
    ∀ h1 h2 fn reg v, s.hist = h1 ++ .access (.read fn reg v) :: h2 → ∃ f, (mgmtReplay ops fns h1)[fn]? = some f ∧ v = f.read ops reg := by
  obtain ⟨t, h1, h2, h3⟩ := Mgmt.run_effect ops usp es { fns } s (fun _ _ h => by simp at h) h
  simp only [List.nil_append] at h1
  rw [h1]
  exact ⟨h2, h3⟩

/-- C60: a new request (after a clock edge without one, or with one that was reported done) is reported done exactly four clock edges later, whatever happens meanwhile. -/
theorem C60_latency (usp : Bool) (fns : List (Fn σ)) (es : List (MgmtEv σ)) (s : Mgmt σ) (h : Mgmt.run ops usp { fns } es = .ok s)
    (hh : MgmtHeld (mgmtEdges s.hist)) (hnew : ∀ e, (mgmtEdges s.hist).getLast? = some e → (e.1.read ∨ e.1.write) → e.2.1 = true)
    (es' : List (MgmtEv σ)) (i i1 i2 i3 i4 : MgmtIn) (hc : mgmtClocks es' = [i, i1, i2, i3, i4]) (hi : i.read ∨ i.write) (s' : Mgmt σ)
    (h' : Mgmt.run ops usp s es' = .ok s') :
    (mgmtEdges s'.hist).map (·.2.1) = (mgmtEdges s.hist).map (·.2.1) ++ [false, false, false, false, true] := by
  have hv := Mgmt.run_inv ops usp es { fns } s ⟨fun _ _ => by simp [mgmtAnswered, mgmtAccesses, mgmtEdges], fun _ h => by simp at h, fun _ _ h => by simp at h⟩ h hh
  have hst : s.st = .idle ∧ s.done = false := by
    cases hst : s.st with
    | idle =>
      refine ⟨rfl, ?_⟩
      cases hd : s.done with
      | false => rfl
      | true =>
        obtain ⟨_, _, e, -, -, h1, h2, h3, -⟩ := hv.done hst hd
        rw [hnew e h1 h2] at h3; cases h3
    | busy j left =>
      obtain ⟨-, -, h2, e, h3, h4, h5⟩ := hv.busy j left hst
      rw [hnew e h3 (by rw [h4]; exact h2)] at h5; cases h5
  rw [Mgmt.run_flags ops usp es' s s' (fun i l h => by simp [hst.1] at h) h', hc, hst.1, hst.2]
  simp [Mgmt.flags, hi]

/-- C60: no exception ends the service, if the functions asked for exist and registers have 32 bits (`I` is whatever is known about the functions at all times). -/
theorem C60_no_exception (usp : Bool) (I : Fn σ → Prop) (hR : ∀ f reg, I f → f.read ops reg < 2 ^ 32) (hW : ∀ f reg data be, I f → I (f.write ops reg data be)) (n : Nat)
    (fns : List (Fn σ)) (es : List (MgmtEv σ)) (hs : n ≤ fns.length ∧ ∀ f ∈ fns, I f) (he : ∀ fns, MgmtEv.env fns ∈ es → n ≤ fns.length ∧ ∀ f ∈ fns, I f)
    (hc : ∀ i, MgmtEv.clock i ∈ es → (i.read ∨ i.write) → mgmtInternal usp i = false → mgmtFn usp i < n) :
    ∃ s, Mgmt.run ops usp { fns } es = .ok s :=
  Mgmt.run_total ops usp I hR hW n es { fns } hs he hc (fun _ _ h => by simp at h)

/-- C60 fails for a function that does not exist: the task ends with an exception, and no request is ever served again. -/
theorem C60_absent_violated : ∃ es : List (MgmtEv Unit),
    (Mgmt.run ⟨fun _ _ => 0, fun s _ _ _ => s⟩ false { fns := [.ep { caps := () }] } es).toOption.isNone = true :=
  ⟨List.replicate 4 (.clock { addr := 1 <<< 10, read := true }), by decide +kernel⟩

/-! Cases that meet the hypotheses. -/

/-- A user that writes the command register of function 1 with one byte enabled, reads it back, and then idles, while the host changes the functions in between. -/
def exMgmtEvs : List (MgmtEv Unit) :=
  List.replicate 5 (.clock { addr := 1 <<< 10 ||| 1, writeData := 0x0107, be := 1, write := true }) ++
  List.replicate 5 (.clock { addr := 1 <<< 10 ||| 1, read := true }) ++ [.clock {}]

/-- Two functions. -/
def exMgmtFns : List (Fn Unit) := [.ep { caps := () }, .ep { caps := () }]

/-- No capabilities. -/
def exMgmtOps : CapOps Unit := ⟨fun _ _ => 0, fun s _ _ _ => s⟩

example : ((Mgmt.run exMgmtOps false { fns := exMgmtFns } exMgmtEvs).toOption.map fun s => (mgmtAnswered s.hist, mgmtAccesses s.hist)) =
    some ([({ addr := 0x401, writeData := 0x0107, be := 1, write := true }, 0), ({ addr := 0x401, read := true }, 0x100007)],
      [.write 1 1 0x0107 1, .read 1 1 0x100007]) := by decide +kernel

/-- `MgmtHeld`, computed. -/
def exHeld : List (MgmtIn × Bool × Nat) → Bool
  | e :: e' :: l => (!(e.1.read || e.1.write) || e.2.1 || e'.1 = e.1) && exHeld (e' :: l)
  | _ => true

theorem exHeld_ok (l : List (MgmtIn × Bool × Nat)) (h : exHeld l = true) : MgmtHeld l := by
  induction l with
  | nil => intro k e e' he; simp at he
  | cons x l ih =>
    cases l with
    | nil => intro k e e' he he'; simp at he'
    | cons y l =>
      simp only [exHeld, Bool.and_eq_true] at h
      intro k e e' he he' hr hd
      cases k with
      | zero =>
        cases he; cases he'
        rcases hr with hr | hr <;> simpa [hr, hd] using h.1
      | succ k => exact ih h.2 k e e' he he' hr hd

example : ∃ s, Mgmt.run exMgmtOps false { fns := exMgmtFns } exMgmtEvs = .ok s ∧ MgmtHeld (mgmtEdges s.hist) := by
  have h : ((Mgmt.run exMgmtOps false { fns := exMgmtFns } exMgmtEvs).toOption.map fun s => exHeld (mgmtEdges s.hist)) = some true := by decide +kernel
  cases hr : Mgmt.run exMgmtOps false { fns := exMgmtFns } exMgmtEvs with
  | error e => rw [hr] at h; cases h
  | ok s =>
    rw [hr] at h
    exact ⟨s, rfl, exHeld_ok _ (by simpa [Except.toOption] using h)⟩

end Pcie
