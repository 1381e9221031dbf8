import Verif.Spec.EndToEnd
import Verif.Props.Fabric
import Verif.Props.Memory
import Verif.Props.Io
/-
Lemmas for C55.
-/
namespace Pcie
open Spec
variable {σ : Type}

/-! ### Windows are determined by the registers -/

private theorem mod16 {k b : Nat} (h : 4 ≤ k) (hb : b % 2 ^ k = 0) : b % 16 = 0 := by
  rw [show (16 : Nat) = 2 ^ 4 from rfl]
  exact Nat.mod_eq_zero_of_dvd (Nat.dvd_trans (Nat.pow_dvd_pow 2 h) (Nat.dvd_of_mod_eq_zero hb))

private theorem mod4 {k b : Nat} (h : 2 ≤ k) (hb : b % 2 ^ k = 0) : b % 4 = 0 := by
  rw [show (4 : Nat) = 2 ^ 2 from rfl]
  exact Nat.mod_eq_zero_of_dvd (Nat.dvd_trans (Nat.pow_dvd_pow 2 h) (Nat.dvd_of_mod_eq_zero hb))

private theorem pow_lt' {k n : Nat} (h : k < n) : 2 ^ k < 2 ^ n := Nat.pow_lt_pow_right (by omega) h

private theorem pow_inj' {a b : Nat} (h : 2 ^ a = 2 ^ b) : a = b := Nat.pow_right_injective (Nat.le_refl 2) h

theorem layout_unique (i : Nat) (bars : List BarReg) (ws vs : List Window) (h : Layout i bars ws) (h' : Layout i bars vs) :
    ws = vs := by
  induction h generalizing vs with
  | nil i => cases h'; rfl
  | absent i r rs ws hr _ ih =>
    subst hr
    cases h' with
    | absent _ _ _ _ _ h => exact ih _ h
    | mem32 _ _ _ _ base k hm h =>
      obtain ⟨-, hk, -, -, -, m⟩ := hm
      have := pow_lt' hk
      simp only at m; omega
    | io _ _ _ _ base k hm h =>
      obtain ⟨-, hk, -, -, -, m⟩ := hm
      have := pow_lt' hk
      simp only at m; omega
    | mem64 _ _ _ _ _ base k hm h =>
      obtain ⟨-, -, -, -, v, -⟩ := hm
      simp only at v; omega
  | mem32 i r rs ws base k hm _ ih =>
    obtain ⟨a1, a2, a3, a4, a5, a6⟩ := hm
    have p1 := pow_lt' a2
    have b1 := mod16 a1 a3
    cases h' with
    | absent _ _ _ _ hr h => subst hr; simp only at a6; omega
    | mem32 _ _ _ _ base' k' hm h =>
      obtain ⟨c1, c2, c3, c4, c5, c6⟩ := hm
      have p2 := pow_lt' c2
      have b2 := mod16 c1 c3
      rw [ih _ h, show base = base' by omega, show k = k' from pow_inj' (by omega)]
    | io _ _ _ _ base' k' hm h =>
      obtain ⟨c1, c2, c3, c4, c5, c6⟩ := hm
      have b2 := mod4 c1 c3
      omega
    | mem64 _ _ _ _ _ base' k' hm h =>
      obtain ⟨c1, c2, c3, c4, c5, c6⟩ := hm
      have b2 := mod16 c1 c3
      omega
  | io i r rs ws base k hm _ ih =>
    obtain ⟨a1, a2, a3, a4, a5, a6⟩ := hm
    have p1 := pow_lt' a2
    have b1 := mod4 a1 a3
    cases h' with
    | absent _ _ _ _ hr h => subst hr; simp only at a6; omega
    | mem32 _ _ _ _ base' k' hm h =>
      obtain ⟨c1, c2, c3, c4, c5, c6⟩ := hm
      have b2 := mod16 c1 c3
      omega
    | io _ _ _ _ base' k' hm h =>
      obtain ⟨c1, c2, c3, c4, c5, c6⟩ := hm
      have p2 := pow_lt' c2
      rw [ih _ h, show base = base' by omega, show k = k' from pow_inj' (by omega)]
    | mem64 _ _ _ _ _ base' k' hm h =>
      obtain ⟨c1, c2, c3, c4, c5, c6⟩ := hm
      have b2 := mod16 c1 c3
      omega
  | mem64 i lo hi rs ws base k hm _ ih =>
    obtain ⟨a1, a2, a3, a4, a5, a6, a7, a8⟩ := hm
    have p1 := pow_lt' a2
    have b1 := mod16 a1 a3
    cases h' with
    | absent _ _ _ _ hr h => subst hr; simp only at a5; omega
    | mem32 _ _ _ _ base' k' hm h =>
      obtain ⟨c1, c2, c3, c4, c5, c6⟩ := hm
      have b2 := mod16 c1 c3
      omega
    | io _ _ _ _ base' k' hm h =>
      obtain ⟨c1, c2, c3, c4, c5, c6⟩ := hm
      have b2 := mod4 c1 c3
      omega
    | mem64 _ _ _ _ _ base' k' hm h =>
      obtain ⟨c1, c2, c3, c4, c5, c6, c7, c8⟩ := hm
      have p2 := pow_lt' c2
      have b2 := mod16 c1 c3
      rw [ih _ h, show base = base' by omega, show k = k' from pow_inj' (by omega)]

theorem layout_facts (i : Nat) (bars : List BarReg) (ws : List Window) (h : Layout i bars ws) :
    ∀ w ∈ ws, 2 ≤ w.k ∧ w.base % 2 ^ w.k = 0 := by
  induction h with
  | nil => intro w hw; cases hw
  | absent _ _ _ _ _ _ ih => exact ih
  | mem32 _ _ _ _ _ _ hm _ ih =>
    intro w hw
    rcases List.mem_cons.1 hw with rfl | hw
    · exact ⟨by have := hm.1; simp only; omega, hm.2.2.1⟩
    · exact ih w hw
  | io _ _ _ _ _ _ hm _ ih =>
    intro w hw
    rcases List.mem_cons.1 hw with rfl | hw
    · exact ⟨by have := hm.1; simp only; omega, hm.2.2.1⟩
    · exact ih w hw
  | mem64 _ _ _ _ _ _ _ hm _ ih =>
    intro w hw
    rcases List.mem_cons.1 hw with rfl | hw
    · exact ⟨by have := hm.1; simp only; omega, hm.2.2.1⟩
    · exact ih w hw

/-! ### Completions -/

/-- A completion that finds its way back to the request. -/
structure GoodCpl (t c : Tlp) : Prop where
  kind : c.fmtType = some .CPL ∨ c.fmtType = some .CPL_DATA
  check : c.check = .ok true
  req : c.requester_id = t.requester_id
  tag : c.tag = t.tag
  th : c.th = false

theorem cpl_kind (t : Tlp) (id : PcieId) (d : Bool) (st : Nat) (t' : Tlp) (h1 : t'.fmt = (t.createCompletion id d st).fmt)
    (h2 : t'.type = (t.createCompletion id d st).type) : t'.fmtType = some (if d then .CPL_DATA else .CPL) := by
  unfold Tlp.fmtType
  rw [h1, h2]
  cases d <;> rfl

theorem cplLoop_th (c : CplCfg) (t : Tlp) (data : List UInt8) (dw bl m n addr : Nat) :
    ∀ x ∈ cplLoop c t data dw bl m n addr, x.th = false ∧ x.fmtType = some .CPL_DATA := by
  induction hk : dw - m using Nat.strongRecOn generalizing m n addr with
  | ind k ih =>
    rw [cplLoop]
    by_cases h : m < dw
    · simp only [h, dite_true]
      intro x hx
      rcases List.mem_cons.1 hx with rfl | hx
      · exact ⟨rfl, cpl_kind t c.id true 0 _ rfl rfl⟩
      · have := c.chunk_pos (dw - m) addr (by omega)
        exact ih _ (by omega) _ _ _ rfl x hx
    · simp only [h, dite_false]
      intro x hx; cases hx

theorem memReadCpls_good (c : CplCfg) (t : Tlp) (M : Mem) (hA : t.address % 4 = 0) (hl : 1 ≤ t.length) :
    ∀ x ∈ memReadCpls c t (M.read t.address (4 * t.length)), GoodCpl t x := by
  intro x hx
  obtain ⟨h1, h2, -, -, -, h6⟩ := (memReadCpls_legal c t M hA hl).2 x hx
  obtain ⟨h7, h8⟩ := cplLoop_th _ _ _ _ _ _ _ _ x hx
  exact ⟨.inr h8, h6, h1, h2, h7⟩

theorem createCpl_good (t : Tlp) (id : PcieId) (st bc : Nat) : GoodCpl t { t.createCompletion id false st with byte_count := bc } :=
  ⟨.inl (cpl_kind t id false st _ rfl rfl), rfl, rfl, rfl, rfl⟩

theorem ioCpl_good (t : Tlp) (id : PcieId) (d : List UInt8) (hd : d.length = 4) :
    GoodCpl t { (t.createCompletionData id).setData d with byte_count := 4, length := 1 } := by
  refine ⟨.inr (cpl_kind t id true 0 _ rfl rfl), ?_, rfl, rfl, rfl⟩
  have key : ∀ c : Tlp, c.fmtType = some .CPL_DATA → c.length = 1 → c.data.length = 4 → c.byte_count = 4 → c.check = .ok true := by
    intro c h1 h2 h3 h4
    simp [Tlp.check, h1, h2, h3, h4]
    omega
  exact key _ (cpl_kind t id true 0 _ rfl rfl) rfl hd rfl

theorem rc_ioRead_good {id : PcieId} {s : AddrSpace} {t : Tlp} {cs : List Tlp} (h : Rc.handleIoRead id s t = .ok cs)
    (hd : ∀ c ∈ cs, c.data.length = 4) : ∀ c ∈ cs, GoodCpl t c := by
  intro c hc
  have := hd c hc
  unfold Rc.handleIoRead at h
  split at h
  · cases h
    rcases List.mem_singleton.1 hc with rfl
    exact createCpl_good t id _ _
  · split at h
    · cases h
    · split at h
      · cases h
        rcases List.mem_singleton.1 hc with rfl
        exact createCpl_good t id _ _
      · cases h
        rcases List.mem_singleton.1 hc with rfl
        exact ioCpl_good t id _ this

theorem ep_ioRead_good {e : MemEp} {t : Tlp} {cs : List Tlp} (h : e.handleIoRead t = .ok cs)
    (hd : ∀ c ∈ cs, c.data.length = 4) : ∀ c ∈ cs, GoodCpl t c := by
  intro c hc
  have := hd c hc
  unfold MemEp.handleIoRead at h
  cases hm : matchBar e.bars t.address true with
  | error x => rw [hm] at h; cases h
  | ok r =>
    rw [hm] at h
    cases r with
    | none =>
      cases h
      rcases List.mem_singleton.1 hc with rfl
      exact createCpl_good t e.id _ _
    | some p =>
      simp only [bind, Except.bind] at h
      split at h
      · cases h
      · split at h
        · cases h
        · cases h
          rcases List.mem_singleton.1 hc with rfl
          exact ioCpl_good t e.id _ this

theorem rc_ioWrite_good {id : PcieId} {s s' : AddrSpace} {t : Tlp} {cs : List Tlp} (h : Rc.handleIoWrite id s t = .ok (s', cs)) :
    ∀ c ∈ cs, GoodCpl t c := by
  intro c hc
  unfold Rc.handleIoWrite at h
  split at h
  · cases h
    rcases List.mem_singleton.1 hc with rfl
    exact createCpl_good t id _ _
  · split at h
    · cases h
    · split at h <;>
      · cases h
        rcases List.mem_singleton.1 hc with rfl
        exact createCpl_good t id _ _

theorem ep_ioWrite_good {e e' : MemEp} {t : Tlp} {cs : List Tlp} (h : e.handleIoWrite t = .ok (e', cs)) :
    ∀ c ∈ cs, GoodCpl t c := by
  intro c hc
  unfold MemEp.handleIoWrite at h
  cases hm : matchBar e.bars t.address true with
  | error x => rw [hm] at h; cases h
  | ok r =>
    rw [hm] at h
    cases r with
    | none =>
      cases h
      rcases List.mem_singleton.1 hc with rfl
      exact createCpl_good t e.id _ _
    | some p =>
      simp only [bind, Except.bind] at h
      split at h
      · cases h
      · split at h
        · cases h
        · cases h
          rcases List.mem_singleton.1 hc with rfl
          exact createCpl_good t _ _ _

/-! ### The handlers of an endpoint change its regions only -/

theorem ep_writeRegion_frame {e e' : MemEp} {r a : Nat} {d : List UInt8} (h : e.writeRegion r a d = .ok e') :
    e' = { e with regions := e'.regions } := by
  unfold MemEp.writeRegion at h
  split at h
  · simp only [bind, Except.bind] at h
    split at h
    · cases h
    · cases h; rfl
  · cases h

theorem ep_applyRuns_frame {r b : Nat} {d : List UInt8} {runs : List (Nat × Nat)} {e e' : MemEp}
    (h : MemEp.applyRuns r b d runs e = .ok e') : e' = { e with regions := e'.regions } := by
  induction runs generalizing e with
  | nil => cases h; rfl
  | cons x runs ih =>
    unfold MemEp.applyRuns at h
    simp only [bind, Except.bind] at h
    split at h
    · cases h
    · next e1 h1 =>
      have a := ep_writeRegion_frame h1
      have b := ih h
      rw [b, a]

theorem ep_memWrite_frame {e e' : MemEp} {t : Tlp} (h : e.handleMemWrite t = .ok e') : e' = { e with regions := e'.regions } := by
  unfold MemEp.handleMemWrite at h
  simp only [bind, Except.bind] at h
  split at h
  · cases h
  · split at h
    · cases h; rfl
    · split at h
      · cases h; rfl
      · exact ep_applyRuns_frame h

theorem ep_ioWrite_frame {e e' : MemEp} {t : Tlp} {cs : List Tlp} (h : e.handleIoWrite t = .ok (e', cs)) :
    e' = { e with regions := e'.regions } := by
  unfold MemEp.handleIoWrite at h
  simp only [bind, Except.bind] at h
  split at h
  · cases h
  · split at h
    · cases h; rfl
    · split at h
      · cases h
      · split at h
        · cases h
        · next h1 => cases h; exact ep_applyRuns_frame h1

theorem IoRegion.readTlp_check (c : ReqCfg) (addr L : Nat) (h0 : 0 < L) (h1 : addr % 4 + L ≤ 4) :
    (readTlp c false addr L).check = .ok true ∧ (readTlp c false addr L).th = false := by
  unfold readTlp
  simp only [setAddrBe_one _ addr L h0 h1]
  exact ⟨rfl, rfl⟩

theorem IoRegion.writeTlp_check (c : ReqCfg) (addr : Nat) (chunk : List UInt8) (h0 : 0 < chunk.length)
    (h1 : addr % 4 + chunk.length ≤ 4) :
    (writeTlp c false addr chunk).check = .ok true ∧ (writeTlp c false addr chunk).th = false := by
  obtain ⟨hio, -, -, hd, -⟩ := writeTlp_fields c false addr chunk h0 h1
  obtain ⟨p1, p2, p3⟩ := C07_payload { (({} : Tlp).setFmtType .IO_WRITE) with requester_id := c.id } addr chunk
  have hone := setAddrBe_one { (({} : Tlp).setFmtType .IO_WRITE) with requester_id := c.id } addr chunk.length h0 h1
  rw [hone] at p3
  have hth : (writeTlp c false addr chunk).th = false := congrArg Tlp.th p3
  refine ⟨?_, hth⟩
  generalize writeTlp c false addr chunk = t at *
  simp [Tlp.check, hio.type, hio.one_dword, hd]

/-! ### Transport -/

/-- What the hierarchy does for the requests of an agent to a function. -/
structure Carries (n : Node σ) (a : Agent) (id : PcieId) (q : List Nat) (k : Nat) (g : EpFn σ) : Prop where
  here : n.fn? q k = some g
  «to» : ∀ t ty tg, t.fmtType = some ty → target t ty = some tg → Completion ty = false → t.check = .ok true → t.th = false →
    Sound tg → EpFn.For g tg → ty ∈ g.handlers → Sys.emit n a t = .ok (.fn q k [.release, .handler t])
  back : ∀ t c, GoodCpl t c → t.requester_id = id → t.tag < 256 → Sys.arrived a (n.send q c) = some c

/-- What the hierarchy does for the requests of a function to the root complex. -/
structure CarriesUp (n : Node σ) (l : Limits) (q : List Nat) (k : Nat) (id : PcieId) : Prop where
  «to» : ∀ t ty tg, t.fmtType = some ty → target t ty = some tg → t.check = .ok true → t.th = false →
    Sound tg → ForRoot l tg → n.send q t = .ok (.exit t)
  back : ∀ t c, GoodCpl t c → t.requester_id = id → t.tag < 256 → Sys.arrived (.fn q k) (n.recv c) = some c

theorem fn?_of_at {n : Node σ} {path : List Nat} {k : Nat} {f : EpFn σ} (h : FnAt n path k f) : n.fn? path k = some f := by
  induction h with
  | dev h => rw [Node.fn?]; exact h
  | sw h _ ih => rw [Node.fn?, h]; exact ih

theorem intact_eq' {t t' : Tlp} (h : Intact t t') (hth : t.th = false) : t' = t := by
  rcases h with rfl | rfl
  · rfl
  · cases t; simp_all

theorem taken_req {ty : TlpType} {t : Tlp} {es : List Eff} (h : Taken ty t es) (hc : Completion ty = false) : es = [.release, .handler t] := by
  unfold Taken at h; rw [hc] at h; simpa using h

theorem taken_cpl {ty : TlpType} {t : Tlp} {es : List Eff} (h : Taken ty t es) (hc : Completion ty = true) : es = [.queue t] := by
  unfold Taken at h; rw [hc] at h; simpa using h

theorem prepared_req {hs : List TlpType} {ty : TlpType} {t : Tlp} (hc : Completion ty = false) (h : ty ∈ hs) : Prepared hs ty t := by
  unfold Prepared; rw [hc]; simpa using h

theorem prepared_cpl {hs : List TlpType} {ty : TlpType} {t : Tlp} (hc : Completion ty = true) (h : t.tag < 256) : Prepared hs ty t := by
  unfold Prepared; rw [hc]; simpa using h

theorem goodCpl_kind {t c : Tlp} (h : GoodCpl t c) : ∃ ty, c.fmtType = some ty ∧ target c ty = some (.cpl t.requester_id) ∧
    Completion ty = true ∧ (ty = .CPL ∨ ty = .CPL_DATA) := by
  rcases h.kind with e | e
  · exact ⟨_, e, by simp [target, h.req], rfl, .inl rfl⟩
  · exact ⟨_, e, by simp [target, h.req], rfl, .inr rfl⟩

section
variable {ops : CapOps σ} {fuel : Nat} {host : BrFn σ} {ports : Ports σ} {rs : List Region} {n : Node σ} {l : Limits}
  (hR : AfterReset host ports rs) (hd : depth ports.bus < fuel) (he : enumerateAll ops fuel host ports = .ok (n, l)) (hl : Fits l)
include hR hd he hl

theorem enumerated_carries {a : Agent} {id : PcieId} {q : List Nat} {k : Nat} {g : EpFn σ} (ha : AgentIs n id a)
    (hg : FnAt n q k g) (ho : OtherDevice q a) : Carries n a id q k g := by
  refine ⟨fn?_of_at hg, ?_, ?_⟩
  · intro t ty tg h1 h2 h3 h4 h5 h6 h7 h8
    cases a with
    | root =>
      obtain ⟨t', es, e, e2, e3⟩ := C54_reach hR hd he hl hg h1 h2 h4 h6 h7 (prepared_req h3 h8)
      rw [intact_eq' e3 h5] at e2
      rw [Sys.emit, e, taken_req e2 h3]
    | fn p j =>
      obtain ⟨f, hf, rfl⟩ := ha
      obtain ⟨t', es, e, e2, e3⟩ := C54_enumerated_peer hR hd he hl hf hg ho h1 h2 h4 h6 h7 (prepared_req h3 h8)
      rw [intact_eq' e3 h5] at e2
      rw [Sys.emit, e, taken_req e2 h3]
  · intro t c h1 h2 h3
    obtain ⟨ty, e1, e2, e3, e4⟩ := goodCpl_kind h1
    rw [h2] at e2
    cases a with
    | root =>
      cases ha
      obtain ⟨c', x, y⟩ := C54_to_root_partial hR hd he hl hg e1 e2 h1.check trivial (by exact rfl)
      rw [x, intact_eq' y h1.th, Sys.arrived, e1]
      rcases e4 with rfl | rfl <;> rfl
    | fn p j =>
      obtain ⟨f, hf, rfl⟩ := ha
      obtain ⟨c', es, x, y, z⟩ := C54_enumerated_peer hR hd he hl hg hf (Ne.symm ho) e1 e2 h1.check trivial (by exact rfl)
        (prepared_cpl e3 (by rw [h1.tag]; exact h3))
      rw [intact_eq' z h1.th] at y
      rw [x, taken_cpl y e3, Sys.arrived, if_pos ⟨rfl, rfl⟩]

theorem enumerated_carriesUp {p : List Nat} {k : Nat} {f : EpFn σ} (hf : FnAt n p k f) : CarriesUp n l p k f.id := by
  refine ⟨?_, ?_⟩
  · intro t ty tg h1 h2 h3 h4 h5 h6
    obtain ⟨t', x, y⟩ := C54_to_root_partial hR hd he hl hf h1 h2 h3 h5 h6
    rw [x, intact_eq' y h4]
  · intro t c h1 h2 h3
    obtain ⟨ty, e1, e2, e3, e4⟩ := goodCpl_kind h1
    rw [h2] at e2
    obtain ⟨c', es, x, y, z⟩ := C54_reach hR hd he hl hf e1 e2 h1.check trivial (by exact rfl)
        (prepared_cpl e3 (by rw [h1.tag]; exact h3))
    rw [intact_eq' z h1.th] at y
    rw [x, taken_cpl y e3, Sys.arrived, if_pos ⟨rfl, rfl⟩]

end

namespace Sys

theorem filter_good {a : Agent} {t : Tlp} {cs : List Tlp} {f : Tlp → Py Fate} (hg : ∀ c ∈ cs, GoodCpl t c)
    (ha : ∀ c ∈ cs, arrived a (f c) = some c) :
    ((cs.map f).filterMap (arrived a)).filter (fun c => decide (c.tag = t.tag)) = cs := by
  have : (cs.map f).filterMap (arrived a) = cs := by
    induction cs with
    | nil => rfl
    | cons c cs ih =>
      rw [List.map_cons, List.filterMap_cons, ha c List.mem_cons_self]
      simp only
      rw [ih (fun x hx => hg x (List.mem_cons_of_mem _ hx)) (fun x hx => ha x (List.mem_cons_of_mem _ hx))]
  rw [this, List.filter_eq_self]
  intro c hc
  exact decide_eq_true (hg c hc).tag

/-- A request to a function: what the function does with it, and its completions. -/
theorem request_fn {s : Sys σ} {a : Agent} {id : PcieId} {q : List Nat} {k : Nat} {g : EpFn σ} (C : Carries s.net a id q k g)
    {t : Tlp} {ty : TlpType} {tg : Target} (h1 : t.fmtType = some ty) (h2 : target t ty = some tg) (h3 : Completion ty = false)
    (h4 : t.check = .ok true) (h5 : t.th = false) (h6 : Sound tg) (h7 : EpFn.For g tg) (h8 : ty ∈ g.handlers)
    (h9 : t.requester_id = id) (h10 : t.tag < 256) {s' : Sys σ} {cs : List Tlp} (h : s.fnGets q k g t = .ok (s', cs))
    (hg : ∀ c ∈ cs, GoodCpl t c) : s.request a t = .ok (s', cs) := by
  unfold request
  rw [C.to t ty tg h1 h2 h3 h4 h5 h6 h7 h8]
  simp only [bind, Except.bind, settle, C.here, h]
  rw [filter_good hg fun c hc => C.back t c (hg c hc) h9 h10]

/-- A request to the root complex. -/
theorem request_root {s : Sys σ} {l : Limits} {q : List Nat} {k : Nat} {id : PcieId} (C : CarriesUp s.net l q k id)
    {t : Tlp} {ty : TlpType} {tg : Target} (h1 : t.fmtType = some ty) (h2 : target t ty = some tg)
    (h4 : t.check = .ok true) (h5 : t.th = false) (h6 : Sound tg) (h7 : ForRoot l tg)
    (h9 : t.requester_id = id) (h10 : t.tag < 256) {s' : Sys σ} {cs : List Tlp} (h : s.rootGets t = .ok (s', cs))
    (hg : ∀ c ∈ cs, GoodCpl t c) : s.request (.fn q k) t = .ok (s', cs) := by
  have e : emit s.net (.fn q k) t = .ok (.exit t) := C.to t ty tg h1 h2 h4 h5 h6 h7
  unfold request
  rw [e]
  simp only [bind, Except.bind, settle, h]
  rw [filter_good hg fun c hc => C.back t c (hg c hc) h9 h10]

/-! ### Reads -/

theorem memRead_congr {c : ReqCfg} {op op' : Tlp → List Tlp} {addr length attr tc : Nat} (h0 : 0 < length)
    (h : ∀ a L, 0 < L → addr ≤ a → a + L ≤ addr + length → a % 4096 + L ≤ 4096 → a % 4 + L ≤ 128 <<< c.mrrs →
      op (Region.readTlp c attr tc false a L) = op' (Region.readTlp c attr tc false a L)) :
    Region.read c op addr length attr tc = Region.read c op' addr length attr tc := by
  have loop : ∀ n a acc, addr ≤ a → a + (length - n) ≤ addr + length →
      Region.consumeAll op (Region.readLoop c attr tc false length n a) acc =
      Region.consumeAll op' (Region.readLoop c attr tc false length n a) acc := by
    intro n
    induction hk : length - n using Nat.strongRecOn generalizing n with
    | ind k ih =>
      intro a acc ha hb
      rw [Region.readLoop]
      by_cases hn : n < length
      · simp only [hn, dite_true]
        obtain ⟨l1, l2, l3, l4⟩ := Region.readLen_facts c a (length - n) (by omega)
        generalize Region.readLen c a (length - n) = L at l1 l2 l3 l4 ⊢
        rw [Region.consumeAll, Region.consumeAll, h a L l1 ha (by omega) l4 l3]
        congr 1
        funext acc'
        exact ih (length - (n + L)) (by omega) (n + L) rfl (a + L) acc' (by omega) (by omega)
      · simp only [hn, dite_false]
        rfl
  unfold Region.read Region.readReqs
  have : ¬ length = 0 := by omega
  simp only [this, if_false, decide_false]
  split
  · rfl
  · simp only [bind, Except.bind]
    rw [loop 0 addr [] (Nat.le_refl _) (by omega)]

theorem ioRead_congr {c : ReqCfg} {op op' : Tlp → List Tlp} {addr length : Nat} (h0 : 0 < length)
    (h : ∀ a L, 0 < L → addr ≤ a → a + L ≤ addr + length → a % 4 + L ≤ 4 →
      op (IoRegion.readTlp c false a L) = op' (IoRegion.readTlp c false a L)) :
    IoRegion.read c op addr length = IoRegion.read c op' addr length := by
  have loop : ∀ n a acc, addr ≤ a → a + (length - n) ≤ addr + length →
      IoRegion.consumeAll op (IoRegion.readLoop c false length n a) acc =
      IoRegion.consumeAll op' (IoRegion.readLoop c false length n a) acc := by
    intro n
    induction hk : length - n using Nat.strongRecOn generalizing n with
    | ind k ih =>
      intro a acc ha hb
      rw [IoRegion.readLoop]
      by_cases hn : n < length
      · simp only [hn, dite_true]
        obtain ⟨l1, l2, l3, -⟩ := IoRegion.len_facts a (length - n) (by omega)
        generalize IoRegion.len a (length - n) = L at l1 l2 l3 ⊢
        unfold IoRegion.consumeAll
        rw [h a L l1 ha (by omega) l3]
        split
        · rfl
        · split
          · rfl
          · split
            · rfl
            · exact ih (length - (n + L)) (by omega) (n + L) rfl (a + L) _ (by omega) (by omega)
      · simp only [hn, dite_false]
        rfl
  unfold IoRegion.read IoRegion.readReqs
  have : ¬ length = 0 := by omega
  simp only [this, if_false, decide_false]
  split
  · rfl
  · simp only [bind, Except.bind]
    rw [loop 0 addr [] (Nat.le_refl _) (by omega)]

/-- The tag does not matter for what a request is. -/
theorem tag_facts (t : Tlp) (x : Nat) : ({ t with tag := x } : Tlp).fmtType = t.fmtType ∧ ({ t with tag := x } : Tlp).check = t.check :=
  ⟨rfl, rfl⟩

theorem mem_completion {b : Prop} [Decidable b] : Completion (if b then TlpType.MEM_READ_64 else .MEM_READ) = false ∧
    Completion (if b then TlpType.MEM_WRITE_64 else .MEM_WRITE) = false := by
  constructor <;> split <;> rfl

theorem fnGets_memRead {s : Sys σ} {q : List Nat} {k : Nat} {g : EpFn σ} {t : Tlp} {b : Prop} [Decidable b]
    (h : t.fmtType = some (if b then .MEM_READ_64 else .MEM_READ)) :
    s.fnGets q k g t = (s.ep q k g).handleMemRead t >>= fun cs => .ok (s, cs) := by
  unfold fnGets; rw [h]; by_cases hb : b <;> simp only [hb, if_true, if_false]

theorem fnGets_memWrite {s : Sys σ} {q : List Nat} {k : Nat} {g : EpFn σ} {t : Tlp} {b : Prop} [Decidable b]
    (h : t.fmtType = some (if b then .MEM_WRITE_64 else .MEM_WRITE)) :
    s.fnGets q k g t = (s.ep q k g).handleMemWrite t >>= fun e => .ok (s.put q k e.regions, []) := by
  unfold fnGets; rw [h]; by_cases hb : b <;> simp only [hb, if_true, if_false]

theorem rootGets_memRead {s : Sys σ} {t : Tlp} {b : Prop} [Decidable b]
    (h : t.fmtType = some (if b then .MEM_READ_64 else .MEM_READ)) :
    s.rootGets t = .ok (s, Rc.handleMemRead s.cfg s.mem t) := by
  unfold rootGets; rw [h]; by_cases hb : b <;> simp only [hb, if_true, if_false]

theorem rootGets_memWrite {s : Sys σ} {t : Tlp} {b : Prop} [Decidable b]
    (h : t.fmtType = some (if b then .MEM_WRITE_64 else .MEM_WRITE)) :
    s.rootGets t = .ok ({ s with mem := Rc.handleMemWrite s.mem t }, []) := by
  unfold rootGets; rw [h]; by_cases hb : b <;> simp only [hb, if_true, if_false]

theorem memRead_fn {s : Sys σ} {a : Agent} {c : ReqCfg} {q : List Nat} {k : Nat} {g : EpFn σ} (C : Carries s.net a c.id q k g)
    {tag : Tlp → Nat} (htag : ∀ t, tag t < 256) {w : Window} {b : Buf} (hb : (s.regions q k)[w.idx]? = some (some b))
    (hsz : b.size ≤ 2 ^ w.k) (hdw : b.size % 4 = 0)
    (hal : w.base % 2 ^ w.k = 0) (hk2 : 2 ≤ w.k) (hh : MemHandlers g.handlers)
    (hw : ∀ x, w.contains x = true → matchBar g.bars x = .ok (some (w.idx, x - w.base)) ∧ EpFn.For g (.mem x) ∧ Sound (.mem x))
    {addr length attr tc : Nat} (hbm : c.busMasterEnable = true) (h0 : 0 < length) (hlo : w.base ≤ addr)
    (hhi : addr + length ≤ w.base + b.size) :
    ∃ bytes, s.memRead a c tag addr length attr tc = .ok bytes ∧ Holds b.mem (addr - w.base) length bytes := by
  have hcl : ClaimsMem g.bars w.idx w.base w.k := fun x h1 h2 => (hw x (by simp [Window.contains, h1, h2])).1
  have hb4 : w.base % 4 = 0 := by
    rw [show (4 : Nat) = 2 ^ 2 from rfl]
    exact Nat.mod_eq_zero_of_dvd (Nat.dvd_trans (Nat.pow_dvd_pow 2 hk2) (Nat.dvd_of_mod_eq_zero hal))
  obtain ⟨bytes, e1, e2⟩ := C13_endpoint_memory_read c (s.ep q k g) tag w.idx w.base w.k b addr length attr tc hbm h0 hcl hk2 hal hb hsz hdw
    hlo hhi
  refine ⟨bytes, ?_, e2⟩
  rw [← e1]
  unfold memRead
  apply memRead_congr h0
  intro a' L h1 h2 h3 h4 h5
  obtain ⟨f1, f2, f3, f4, f5, f6, f7, f8, f9⟩ := Region.readTlp_fields c attr tc false a' L h1
  have hok := Region.readTlp_ok c attr tc false a' L h1 h5 h4
  have hin : w.contains (a' / 4 * 4) = true := by simp [Window.contains]; omega
  obtain ⟨m1, m2, m3⟩ := hw _ hin
  generalize Region.readTlp c attr tc false a' L = t at *
  have hmem : (s.ep q k g).handleMemRead { t with tag := tag t } =
      .ok (memReadCpls (s.ep q k g).cplCfg { t with tag := tag t } ((busView b w.base).read t.address (4 * t.length))) := by
    refine ep_memRead (s.ep q k g) { t with tag := tag t } w.idx w.base b (by simp only [f1]; exact m1) hb (by simp only [f1]; omega)
      (by simp only [f1, f2]; omega) ?_
    have := hok.boundary
    simp only
    by_cases h12 : 12 ≤ w.k
    · have : w.base % 4096 = 0 := by
        rw [show (4096 : Nat) = 2 ^ 12 from rfl]
        exact Nat.mod_eq_zero_of_dvd (Nat.dvd_trans (Nat.pow_dvd_pow 2 h12) (Nat.dvd_of_mod_eq_zero hal))
      rw [f1] at *; omega
    · have : 2 ^ w.k ≤ 4096 := by
        rw [show (4096 : Nat) = 2 ^ 12 from rfl]
        exact Nat.pow_le_pow_right (by omega) (by omega)
      rw [f1, f2] at *; omega
  have hgood := memReadCpls_good (s.ep q k g).cplCfg { t with tag := tag t } (busView b w.base) hok.aligned hok.length_pos
  have hreq : s.request a { t with tag := tag t } = .ok (s, memReadCpls (s.ep q k g).cplCfg { t with tag := tag t }
      ((busView b w.base).read t.address (4 * t.length))) := by
    refine request_fn C (t := { t with tag := tag t }) (ty := if a' > 0xffffffff then .MEM_READ_64 else .MEM_READ) (tg := .mem (a' / 4 * 4)) f4 ?_ mem_completion.1 hok.check f9
      m3 m2 ?_ f6 (htag t) ?_ hgood
    · split <;> simp [target, f1]
    · split <;> exact hh _ (by simp)
    · rw [fnGets_memRead (t := { t with tag := tag t }) (b := a' > 0xffffffff) f4, hmem]
      rfl
  unfold op epAnswer
  rw [hreq, hmem]

theorem memRead_root {s : Sys σ} {l : Limits} {c : ReqCfg} {q : List Nat} {k : Nat} (C : CarriesUp s.net l q k c.id)
    {tag : Tlp → Nat} (htag : ∀ t, tag t < 256) {addr length attr tc : Nat} (hbm : c.busMasterEnable = true) (h0 : 0 < length)
    (hr : ∀ x, addr / 4 * 4 ≤ x → x < addr + length → Sound (.mem x) ∧ ForRoot l (.mem x))
    (hcov : ∀ x m, addr / 4 * 4 ≤ x → x + m ≤ (addr + length + 3) / 4 * 4 → s.mem.covers x m = true)
    (hok : ∀ x m, addr / 4 * 4 ≤ x → x + m ≤ (addr + length + 3) / 4 * 4 → s.mem.readOk x m = true) :
    ∃ bytes, s.memRead (.fn q k) c tag addr length attr tc = .ok bytes ∧ Holds s.mem.mem addr length bytes := by
  obtain ⟨bytes, e1, e2⟩ := C13_rc_memory_read c s.cfg s.mem tag addr length attr tc hbm h0 hcov hok
  refine ⟨bytes, ?_, e2⟩
  rw [← e1]
  unfold memRead
  apply memRead_congr h0
  intro a' L h1 h2 h3 h4 h5
  obtain ⟨f1, f2, f3, f4, f5, f6, f7, f8, f9⟩ := Region.readTlp_fields c attr tc false a' L h1
  have hro := Region.readTlp_ok c attr tc false a' L h1 h5 h4
  obtain ⟨m1, m2⟩ := hr (a' / 4 * 4) (by omega) (by omega)
  generalize Region.readTlp c attr tc false a' L = t at *
  have hmem : Rc.handleMemRead s.cfg s.mem { t with tag := tag t } =
      memReadCpls s.cfg { t with tag := tag t } (s.mem.mem.read t.address (4 * t.length)) :=
    rc_memRead s.cfg s.mem { t with tag := tag t } hro.boundary (hcov _ _ (by simp only [f1]; omega) (by simp only [f1, f2]; omega))
      (hok _ _ (by simp only [f1]; omega) (by simp only [f1, f2]; omega))
  have hreq : s.request (.fn q k) { t with tag := tag t } = .ok (s, Rc.handleMemRead s.cfg s.mem { t with tag := tag t }) := by
    refine request_root C (t := { t with tag := tag t }) (ty := if a' > 0xffffffff then .MEM_READ_64 else .MEM_READ) (tg := .mem (a' / 4 * 4)) f4 ?_
      hro.check f9 m1 m2 f6 (htag t) (rootGets_memRead (t := { t with tag := tag t }) (b := a' > 0xffffffff) f4) ?_
    · split <;> simp [target, f1]
    · rw [hmem]
      exact memReadCpls_good s.cfg { t with tag := tag t } s.mem.mem hro.aligned hro.length_pos
  unfold op rcAnswer
  rw [hreq]

theorem ioRead_fn {s : Sys σ} {a : Agent} {c : ReqCfg} {q : List Nat} {k : Nat} {g : EpFn σ} (C : Carries s.net a c.id q k g)
    {tag : Tlp → Nat} (htag : ∀ t, tag t < 256) {w : Window} {b : Buf} (hb : (s.regions q k)[w.idx]? = some (some b))
    (hsz : b.size ≤ 2 ^ w.k) (hal : w.base % 2 ^ w.k = 0) (hk2 : 2 ≤ w.k) (hh : MemHandlers g.handlers)
    (hw : ∀ x, w.contains x = true → matchBar g.bars x true = .ok (some (w.idx, x - w.base)) ∧ EpFn.For g (.io x) ∧ Sound (.io x))
    {addr length : Nat} (hbm : c.busMasterEnable = true) (h0 : 0 < length) (hlo : w.base ≤ addr)
    (hhi : addr + length ≤ w.base + b.size) :
    ∃ bytes, s.ioRead a c tag addr length = .ok bytes ∧ Holds b.mem (addr - w.base) length bytes := by
  have hcl : ClaimsIo g.bars w.idx w.base w.k := fun x h1 h2 => (hw x (by simp [Window.contains, h1, h2])).1
  have hb4 : w.base % 4 = 0 := by
    rw [show (4 : Nat) = 2 ^ 2 from rfl]
    exact Nat.mod_eq_zero_of_dvd (Nat.dvd_trans (Nat.pow_dvd_pow 2 hk2) (Nat.dvd_of_mod_eq_zero hal))
  obtain ⟨bytes, e1, e2⟩ := C16_endpoint_io_read c (s.ep q k g) tag w.idx w.base w.k b addr length hbm h0 hcl hk2 hal hb hsz hlo hhi
  refine ⟨bytes, ?_, e2⟩
  rw [← e1]
  unfold ioRead
  apply ioRead_congr h0
  intro a' L h1 h2 h3 h4
  obtain ⟨hio, f1, f2, f3⟩ := IoRegion.readTlp_ok c false a' L h1 h4
  have hck := IoRegion.readTlp_check c a' L h1 h4
  have hen := IoRegion.readTlp_enabled c a' L
  have hin : w.contains (a' / 4 * 4) = true := by simp [Window.contains]; omega
  obtain ⟨m1, m2, m3⟩ := hw _ hin
  generalize IoRegion.readTlp c false a' L = t at *
  have hen' : ∀ b, Spec.byteEnabled { t with tag := tag t } b ↔ a' ≤ b ∧ b < a' + L := hen
  obtain ⟨cp, g1, g2, -⟩ := ep_ioRead (s.ep q k g) b w.idx (a' / 4 * 4 - w.base) { t with tag := tag t } hio.one_dword
    (by simp only [f1]; exact m1) hb (fun i hi => by
      have := (hen' _).1 hi
      simp only [f1] at this; omega)
  have hgood : ∀ x ∈ [cp], GoodCpl { t with tag := tag t } x := by
    refine ep_ioRead_good g1 ?_
    intro x hx
    obtain ⟨c', rest, j1, -, -, j4, -⟩ := g2
    cases j1
    rcases List.mem_singleton.1 hx with rfl
    exact j4
  have hreq : s.request a { t with tag := tag t } = .ok (s, [cp]) := by
    refine request_fn C (t := { t with tag := tag t }) (ty := .IO_READ) (tg := .io (a' / 4 * 4)) hio.type (by simp [target, f1]) rfl hck.1 hck.2
      m3 m2 (hh _ (by simp)) f2 (htag t) ?_ hgood
    unfold fnGets
    rw [show ({ t with tag := tag t } : Tlp).fmtType = some .IO_READ from hio.type]
    simp only [g1, bind, Except.bind]
  unfold op epIoReadAnswer
  rw [hreq, g1]

theorem ioRead_root {s : Sys σ} {l : Limits} {c : ReqCfg} {q : List Nat} {k : Nat} (C : CarriesUp s.net l q k c.id)
    {tag : Tlp → Nat} (htag : ∀ t, tag t < 256) {addr length : Nat} (hbm : c.busMasterEnable = true) (h0 : 0 < length)
    (hr : ∀ x, addr / 4 * 4 ≤ x → x < addr + length → Sound (.io x) ∧ ForRoot l (.io x))
    (hcov : ∀ x m, addr / 4 * 4 ≤ x → x + m ≤ (addr + length + 3) / 4 * 4 → s.io.covers x m = true)
    (hok : ∀ x m, addr ≤ x → x + m ≤ addr + length → s.io.readOk x m = true) :
    ∃ bytes, s.ioRead (.fn q k) c tag addr length = .ok bytes ∧ Holds s.io.mem addr length bytes := by
  obtain ⟨bytes, e1, e2⟩ := C16_rc_io_read c s.cfg.id s.io tag addr length hbm h0 hcov hok
  refine ⟨bytes, ?_, e2⟩
  rw [← e1]
  unfold ioRead
  apply ioRead_congr h0
  intro a' L h1 h2 h3 h4
  obtain ⟨hio, f1, f2, f3⟩ := IoRegion.readTlp_ok c false a' L h1 h4
  have hck := IoRegion.readTlp_check c a' L h1 h4
  have hen := IoRegion.readTlp_enabled c a' L
  obtain ⟨m1, m2⟩ := hr (a' / 4 * 4) (by omega) (by omega)
  generalize IoRegion.readTlp c false a' L = t at *
  have hen' : ∀ b, Spec.byteEnabled { t with tag := tag t } b ↔ a' ≤ b ∧ b < a' + L := hen
  obtain ⟨cp, g1, g2, -⟩ := rc_ioRead s.cfg.id s.io { t with tag := tag t } hio.one_dword
    (hcov _ _ (by simp only [f1]; omega) (by simp only [f1]; omega)) (fun x n hn hx => by
      have hx1 := (hen' _).1 (hx x (by omega) (by omega))
      have hx2 := (hen' _).1 (hx (x + n - 1) (by omega) (by omega))
      exact hok _ _ (by omega) (by omega))
  have hgood : ∀ x ∈ [cp], GoodCpl { t with tag := tag t } x := by
    refine rc_ioRead_good g1 ?_
    intro x hx
    obtain ⟨c', rest, j1, -, -, j4, -⟩ := g2
    cases j1
    rcases List.mem_singleton.1 hx with rfl
    exact j4
  have hreq : s.request (.fn q k) { t with tag := tag t } = .ok (s, [cp]) := by
    refine request_root C (t := { t with tag := tag t }) (ty := .IO_READ) (tg := .io (a' / 4 * 4)) hio.type (by simp [target, f1]) hck.1 hck.2
      m1 m2 f2 (htag t) ?_ hgood
    unfold rootGets
    rw [show ({ t with tag := tag t } : Tlp).fmtType = some .IO_READ from hio.type]
    simp only [g1, bind, Except.bind]
  unfold op rcIoReadAnswer
  rw [hreq, g1]

/-! ### Writes -/

theorem put_put (s : Sys σ) (q : List Nat) (k : Nat) (r r' : List (Option Buf)) : (s.put q k r).put q k r' = s.put q k r' := by
  unfold put
  congr 1
  funext p j
  simp only
  split <;> rfl

theorem put_self (s : Sys σ) (q : List Nat) (k : Nat) : s.put q k (s.regions q k) = s := by
  unfold put
  have : (fun p j => if p = q ∧ j = k then s.regions q k else s.regions p j) = s.regions := by
    funext p j
    split
    · next h => rw [h.1, h.2]
    · rfl
  rw [this]

theorem put_ep {s : Sys σ} {q : List Nat} {k : Nat} {g : EpFn σ} {e : MemEp} (h : e = { s.ep q k g with regions := e.regions }) :
    (s.put q k e.regions).ep q k g = e := by
  rw [h]
  unfold ep put
  simp

theorem put_withRegion (s : Sys σ) (q : List Nat) (k idx : Nat) (b : Buf) :
    s.put q k ((s.regions q k).set idx (some b)) = withRegion s q k idx b := by
  unfold put withRegion
  congr 1
  funext p j
  split
  · next h => rw [h.1, h.2]
  · rfl

theorem writeLoop_mem (c : ReqCfg) (attr tc : Nat) (data : List UInt8) (n addr : Nat) (hn : n ≤ data.length) :
    ∀ t ∈ Region.writeLoop c attr tc false data n addr, ∃ a chunk, t = Region.writeTlp c attr tc false a chunk ∧
      0 < chunk.length ∧ addr ≤ a ∧ a + chunk.length ≤ addr + (data.length - n) ∧ a % 4 + chunk.length ≤ 128 <<< c.mps ∧
      a % 4096 + chunk.length ≤ 4096 := by
  induction hk : data.length - n using Nat.strongRecOn generalizing n addr with
  | ind k ih =>
    rw [Region.writeLoop]
    by_cases h : n < data.length
    · simp only [h, dite_true]
      obtain ⟨l1, l2, l3, l4⟩ := Region.writeLen_facts c addr (data.length - n) (by omega)
      generalize Region.writeLen c addr (data.length - n) = L at l1 l2 l3 l4 ⊢
      have hs : (slice data n (n + L)).length = L := by rw [slice_length _ _ _ (by omega)]; omega
      intro t ht
      rcases List.mem_cons.1 ht with rfl | ht
      · exact ⟨addr, _, rfl, by omega, by omega, by omega, by omega, by omega⟩
      · obtain ⟨a, ch, i1, i2, i3, i4, i5⟩ := ih (data.length - (n + L)) (by omega) (n + L) (addr + L) (by omega) rfl t ht
        exact ⟨a, ch, i1, i2, by omega, by omega, i5⟩
    · simp only [h, dite_false]
      intro t ht; cases ht

theorem ioWriteLoop_mem (c : ReqCfg) (data : List UInt8) (n addr : Nat) (hn : n ≤ data.length) :
    ∀ t ∈ IoRegion.writeLoop c false data n addr, ∃ a chunk, t = IoRegion.writeTlp c false a chunk ∧
      0 < chunk.length ∧ addr ≤ a ∧ a + chunk.length ≤ addr + (data.length - n) ∧ a % 4 + chunk.length ≤ 4 := by
  induction hk : data.length - n using Nat.strongRecOn generalizing n addr with
  | ind k ih =>
    rw [IoRegion.writeLoop]
    by_cases h : n < data.length
    · simp only [h, dite_true]
      obtain ⟨l1, l2, l3, -⟩ := IoRegion.len_facts addr (data.length - n) (by omega)
      generalize IoRegion.len addr (data.length - n) = L at l1 l2 l3 ⊢
      have hs : (slice data n (n + L)).length = L := by rw [slice_length _ _ _ (by omega)]; omega
      intro t ht
      rcases List.mem_cons.1 ht with rfl | ht
      · exact ⟨addr, _, rfl, by omega, by omega, by omega, by omega⟩
      · obtain ⟨a, ch, i1, i2, i3, i4, i5⟩ := ih (data.length - (n + L)) (by omega) (n + L) (addr + L) (by omega) rfl t ht
        exact ⟨a, ch, i1, i2, by omega, by omega, i5⟩
    · simp only [h, dite_false]
      intro t ht; cases ht

theorem memWrites_fn {q : List Nat} {k : Nat} {g : EpFn σ} {a : Agent} (ts : List Tlp) (s : Sys σ) (e' : MemEp)
    (h : ts.foldlM MemEp.handleMemWrite (s.ep q k g) = .ok e')
    (hq : ∀ s' : Sys σ, s'.net = s.net → ∀ t ∈ ts, ∀ e'', (s'.ep q k g).handleMemWrite t = .ok e'' →
      s'.request a t = .ok (s'.put q k e''.regions, [])) :
    ts.foldlM (fun s t => do .ok (← s.request a t).1) s = .ok (s.put q k e'.regions) := by
  induction ts generalizing s with
  | nil => cases h; exact congrArg Except.ok (put_self s q k).symm
  | cons t ts ih =>
    rw [List.foldlM_cons] at h
    cases h1 : (s.ep q k g).handleMemWrite t with
    | error x => rw [h1] at h; cases h
    | ok e1 =>
      rw [h1] at h
      have f := ep_memWrite_frame h1
      have e2 := put_ep f
      rw [List.foldlM_cons, hq s rfl t List.mem_cons_self e1 h1]
      simp only [bind, Except.bind] at h ⊢
      rw [← e2] at h
      have := ih (s.put q k e1.regions) h (fun s' hs t ht => hq s' hs t (List.mem_cons_of_mem _ ht))
      simp only [bind, Except.bind] at this
      rw [this, put_put]

theorem memWrite_fn {s : Sys σ} {a : Agent} {c : ReqCfg} {q : List Nat} {k : Nat} {g : EpFn σ} (C : Carries s.net a c.id q k g)
    {w : Window} {b : Buf} (hb : (s.regions q k)[w.idx]? = some (some b))
    (hsz : b.size ≤ 2 ^ w.k) (hal : w.base % 2 ^ w.k = 0) (hk2 : 2 ≤ w.k) (hh : MemHandlers g.handlers)
    (hw : ∀ x, w.contains x = true → matchBar g.bars x = .ok (some (w.idx, x - w.base)) ∧ EpFn.For g (.mem x) ∧ Sound (.mem x))
    {addr attr tc : Nat} {data : List UInt8} (hbm : c.busMasterEnable = true) (h0 : data ≠ []) (hlo : w.base ≤ addr)
    (hhi : addr + data.length ≤ w.base + b.size) :
    ∃ m', s.memWrite a c addr data attr tc = .ok (withRegion s q k w.idx ⟨b.size, m'⟩) ∧
      Replaced b.mem m' (addr - w.base) data := by
  have hcl : ClaimsMem g.bars w.idx w.base w.k := fun x h1 h2 => (hw x (by simp [Window.contains, h1, h2])).1
  have hb4 : w.base % 4 = 0 := by
    rw [show (4 : Nat) = 2 ^ 2 from rfl]
    exact Nat.mod_eq_zero_of_dvd (Nat.dvd_trans (Nat.pow_dvd_pow 2 hk2) (Nat.dvd_of_mod_eq_zero hal))
  obtain ⟨tlps, m', e1, e2, e3⟩ := C11_endpoint_memory_write c (s.ep q k g) w.idx w.base w.k b addr data attr tc hbm hcl hk2 hal hb hsz
    hlo hhi h0
  refine ⟨m', ?_, e3⟩
  unfold memWrite
  rw [e1]
  have hd0 : ¬ data.length = 0 := fun h => h0 (List.length_eq_zero_iff.1 h)
  have hts : tlps = Region.writeLoop c attr tc false data 0 addr := by
    unfold Region.write at e1
    simp only [hbm, not_true_eq_false, if_false, hd0, decide_false] at e1
    cases e1; rfl
  have := memWrites_fn (a := a) tlps s _ e2 ?_
  · simp only [bind, Except.bind] at this ⊢
    rw [this, ← put_withRegion]; rfl
  · intro s' hs t ht e'' he
    rw [hts] at ht
    obtain ⟨x, ch, rfl, i2, i3, i4, i5, i6⟩ := writeLoop_mem c attr tc data 0 addr (by omega) t ht
    obtain ⟨f1, f2, f3, f4, f5, f6, f7, f8, f9, f10⟩ := Region.writeTlp_fields c attr tc false x ch i2
    have hok := Region.writeTlp_ok c attr tc false x ch i2 i5 i6
    have htag : (Region.writeTlp c attr tc false x ch).tag = 0 := by
      unfold Region.writeTlp
      have : ∀ T : Tlp, (T.setAddrBeData x ch).tag = T.tag := fun T => congrArg Tlp.tag (C07_payload T x ch).2.2 |>.trans (by
        unfold Tlp.setAddrBe; simp only; split <;> (try split) <;> rfl)
      simp only [Bool.false_eq_true, if_false]
      rw [this]
      split <;> rfl
    have hin : w.contains (x / 4 * 4) = true := by simp [Window.contains]; omega
    obtain ⟨m1, m2, m3⟩ := hw _ hin
    generalize Region.writeTlp c attr tc false x ch = t at *
    refine request_fn (hs ▸ C) (ty := if x > 0xffffffff then .MEM_WRITE_64 else .MEM_WRITE) (tg := .mem (x / 4 * 4)) f5 ?_ mem_completion.2
      hok.check f10 m3 m2 ?_ f6 (by omega) ?_ (fun c hc => by cases hc)
    · split <;> simp [target, f1]
    · split <;> exact hh _ (by simp)
    · rw [fnGets_memWrite (b := x > 0xffffffff) f5, he]
      rfl

theorem memWrites_root {q : List Nat} {k : Nat} (ts : List Tlp) (s : Sys σ)
    (hq : ∀ s' : Sys σ, s'.net = s.net → ∀ t ∈ ts,
      s'.request (.fn q k) t = .ok ({ s' with mem := Rc.handleMemWrite s'.mem t }, [])) :
    ts.foldlM (fun s t => do .ok (← s.request (.fn q k) t).1) s = .ok { s with mem := ts.foldl Rc.handleMemWrite s.mem } := by
  induction ts generalizing s with
  | nil => rfl
  | cons t ts ih =>
    rw [List.foldlM_cons, hq s rfl t List.mem_cons_self]
    have := ih { s with mem := Rc.handleMemWrite s.mem t } (fun s' hs t ht => hq s' hs t (List.mem_cons_of_mem _ ht))
    simp only [bind, Except.bind] at this ⊢
    rw [this]; rfl

theorem memWrite_root {s : Sys σ} {l : Limits} {c : ReqCfg} {q : List Nat} {k : Nat} (C : CarriesUp s.net l q k c.id)
    {addr attr tc : Nat} {data : List UInt8} (hbm : c.busMasterEnable = true) (h0 : data ≠ [])
    (hr : ∀ x, addr / 4 * 4 ≤ x → x < addr + data.length → Sound (.mem x) ∧ ForRoot l (.mem x))
    (hcov : ∀ x m, addr / 4 * 4 ≤ x → x + m ≤ (addr + data.length + 3) / 4 * 4 → s.mem.covers x m = true)
    (hok : ∀ x m, addr ≤ x → x + m ≤ addr + data.length → s.mem.writeOk x m = true) :
    ∃ m', s.memWrite (.fn q k) c addr data attr tc = .ok { s with mem := { s.mem with mem := m' } } ∧
      Replaced s.mem.mem m' addr data := by
  obtain ⟨tlps, m', e1, e2, e3⟩ := C11_rc_memory_write c s.mem addr data attr tc hbm hcov hok
  refine ⟨m', ?_, e3⟩
  unfold memWrite
  rw [e1, ← e2]
  have hd0 : ¬ data.length = 0 := fun h => h0 (List.length_eq_zero_iff.1 h)
  have hts : tlps = Region.writeLoop c attr tc false data 0 addr := by
    unfold Region.write at e1
    simp only [hbm, not_true_eq_false, if_false, hd0, decide_false] at e1
    cases e1; rfl
  have := memWrites_root (q := q) (k := k) tlps s ?_
  · simp only [bind, Except.bind] at this ⊢
    rw [this]
  · intro s' hs t ht
    rw [hts] at ht
    obtain ⟨x, ch, rfl, i2, i3, i4, i5, i6⟩ := writeLoop_mem c attr tc data 0 addr (by omega) t ht
    obtain ⟨f1, f2, f3, f4, f5, f6, f7, f8, f9, f10⟩ := Region.writeTlp_fields c attr tc false x ch i2
    have hok := Region.writeTlp_ok c attr tc false x ch i2 i5 i6
    have htag : (Region.writeTlp c attr tc false x ch).tag = 0 := by
      unfold Region.writeTlp
      have : ∀ T : Tlp, (T.setAddrBeData x ch).tag = T.tag := fun T => congrArg Tlp.tag (C07_payload T x ch).2.2 |>.trans (by
        unfold Tlp.setAddrBe; simp only; split <;> (try split) <;> rfl)
      simp only [Bool.false_eq_true, if_false]
      rw [this]
      split <;> rfl
    obtain ⟨m1, m2⟩ := hr (x / 4 * 4) (by omega) (by omega)
    generalize Region.writeTlp c attr tc false x ch = t at *
    refine request_root (hs ▸ C) (ty := if x > 0xffffffff then .MEM_WRITE_64 else .MEM_WRITE) (tg := .mem (x / 4 * 4)) f5 ?_
      hok.check f10 m1 m2 f6 (by omega) (rootGets_memWrite (b := x > 0xffffffff) f5) (fun c hc => by cases hc)
    split <;> simp [target, f1]

theorem ioWrites_fn {q : List Nat} {k : Nat} {g : EpFn σ} {a : Agent} {tag : Tlp → Nat} (ts : List Tlp) (s : Sys σ) (e' : MemEp)
    (rs : List (List Tlp)) (h : epIoWriteAll tag (s.ep q k g) ts = .ok (e', rs))
    (hq : ∀ s' : Sys σ, s'.net = s.net → ∀ t ∈ ts, ∀ e'' cs, (s'.ep q k g).handleIoWrite { t with tag := tag t } = .ok (e'', cs) →
      s'.request a { t with tag := tag t } = .ok (s'.put q k e''.regions, cs)) :
    ioWriteAll a tag s ts = .ok (s.put q k e'.regions, rs) := by
  induction ts generalizing s e' rs with
  | nil => cases h; rw [ioWriteAll]; exact congrArg (fun x => Except.ok (x, _)) (put_self s q k).symm
  | cons t ts ih =>
    rw [epIoWriteAll] at h
    cases h1 : (s.ep q k g).handleIoWrite { t with tag := tag t } with
    | error x => rw [h1] at h; cases h
    | ok p =>
      obtain ⟨e1, cs⟩ := p
      rw [h1] at h
      have f := ep_ioWrite_frame h1
      have e2 := put_ep f
      rw [ioWriteAll, hq s rfl t List.mem_cons_self e1 cs h1]
      simp only [bind, Except.bind] at h ⊢
      cases h2 : epIoWriteAll tag e1 ts with
      | error x => rw [h2] at h; cases h
      | ok p =>
        obtain ⟨e3, rs'⟩ := p
        rw [h2] at h
        cases h
        rw [← e2] at h2
        rw [ih (s.put q k e1.regions) _ _ h2 (fun s' hs t ht => hq s' hs t (List.mem_cons_of_mem _ ht)), put_put]

theorem ioWrite_fn {s : Sys σ} {a : Agent} {c : ReqCfg} {q : List Nat} {k : Nat} {g : EpFn σ} (C : Carries s.net a c.id q k g)
    {tag : Tlp → Nat} (htag : ∀ t, tag t < 256) {w : Window} {b : Buf} (hb : (s.regions q k)[w.idx]? = some (some b))
    (hsz : b.size ≤ 2 ^ w.k) (hal : w.base % 2 ^ w.k = 0) (hk2 : 2 ≤ w.k) (hh : MemHandlers g.handlers)
    (hw : ∀ x, w.contains x = true → matchBar g.bars x true = .ok (some (w.idx, x - w.base)) ∧ EpFn.For g (.io x) ∧ Sound (.io x))
    {addr : Nat} {data : List UInt8} (hbm : c.busMasterEnable = true) (h0 : data ≠ []) (hlo : w.base ≤ addr)
    (hhi : addr + data.length ≤ w.base + b.size) :
    ∃ m', s.ioWrite a c tag addr data = .ok (withRegion s q k w.idx ⟨b.size, m'⟩) ∧ Replaced b.mem m' (addr - w.base) data := by
  have hcl : ClaimsIo g.bars w.idx w.base w.k := fun x h1 h2 => (hw x (by simp [Window.contains, h1, h2])).1
  have hb4 : w.base % 4 = 0 := by
    rw [show (4 : Nat) = 2 ^ 2 from rfl]
    exact Nat.mod_eq_zero_of_dvd (Nat.dvd_trans (Nat.pow_dvd_pow 2 hk2) (Nat.dvd_of_mod_eq_zero hal))
  obtain ⟨reqs, m', rs, e1, e2, e3, e4⟩ := C16_endpoint_io_write c (s.ep q k g) tag w.idx w.base w.k b addr data hbm h0 hcl hk2 hal hb hsz
    hlo hhi
  refine ⟨m', ?_, e4⟩
  unfold ioWrite
  rw [e1]
  have hd0 : ¬ data.length = 0 := fun h => h0 (List.length_eq_zero_iff.1 h)
  have hts : reqs = IoRegion.writeLoop c false data 0 addr := by
    unfold IoRegion.writeReqs at e1
    simp only [hbm, not_true_eq_false, if_false, hd0, decide_false] at e1
    cases e1; rfl
  have := ioWrites_fn (a := a) reqs s _ _ e2 ?_
  · simp only [bind, Except.bind]
    rw [this]
    simp only [e3]
    rw [← put_withRegion]; rfl
  · intro s' hs t ht e'' cs he
    rw [hts] at ht
    obtain ⟨x, ch, rfl, i2, i3, i4, i5⟩ := ioWriteLoop_mem c data 0 addr (by omega) t ht
    obtain ⟨hio, f1, f2, -⟩ := IoRegion.writeTlp_fields c false x ch i2 i5
    have hck := IoRegion.writeTlp_check c x ch i2 i5
    have hin : w.contains (x / 4 * 4) = true := by simp [Window.contains]; omega
    obtain ⟨m1, m2, m3⟩ := hw _ hin
    generalize IoRegion.writeTlp c false x ch = t at *
    refine request_fn (hs ▸ C) (t := { t with tag := tag t }) (ty := .IO_WRITE) (tg := .io (x / 4 * 4)) hio.type (by simp [target, f1]) rfl hck.1 hck.2
      m3 m2 (hh _ (by simp)) f2 (htag t) ?_ (ep_ioWrite_good he)
    unfold fnGets
    rw [show ({ t with tag := tag t } : Tlp).fmtType = some .IO_WRITE from hio.type]
    simp only [he, bind, Except.bind]

theorem ioWrites_root {q : List Nat} {k : Nat} {tag : Tlp → Nat} (ts : List Tlp) (s : Sys σ) (io' : AddrSpace)
    (rs : List (List Tlp)) (h : rcIoWriteAll s.cfg.id tag s.io ts = .ok (io', rs))
    (hq : ∀ s' : Sys σ, s'.net = s.net → ∀ t ∈ ts, ∀ io'' cs, Rc.handleIoWrite s'.cfg.id s'.io { t with tag := tag t } = .ok (io'', cs) →
      s'.request (.fn q k) { t with tag := tag t } = .ok ({ s' with io := io'' }, cs)) :
    ioWriteAll (.fn q k) tag s ts = .ok ({ s with io := io' }, rs) := by
  induction ts generalizing s io' rs with
  | nil => cases h; rfl
  | cons t ts ih =>
    rw [rcIoWriteAll] at h
    cases h1 : Rc.handleIoWrite s.cfg.id s.io { t with tag := tag t } with
    | error x => rw [h1] at h; cases h
    | ok p =>
      obtain ⟨io1, cs⟩ := p
      rw [h1] at h
      rw [ioWriteAll, hq s rfl t List.mem_cons_self io1 cs h1]
      simp only [bind, Except.bind] at h ⊢
      cases h2 : rcIoWriteAll s.cfg.id tag io1 ts with
      | error x => rw [h2] at h; cases h
      | ok p =>
        obtain ⟨io3, rs'⟩ := p
        rw [h2] at h
        cases h
        rw [ih { s with io := io1 } _ _ h2 (fun s' hs t ht => hq s' hs t (List.mem_cons_of_mem _ ht))]

theorem ioWrite_root {s : Sys σ} {l : Limits} {c : ReqCfg} {q : List Nat} {k : Nat} (C : CarriesUp s.net l q k c.id)
    {tag : Tlp → Nat} (htag : ∀ t, tag t < 256) {addr : Nat} {data : List UInt8} (hbm : c.busMasterEnable = true) (h0 : data ≠ [])
    (hr : ∀ x, addr / 4 * 4 ≤ x → x < addr + data.length → Sound (.io x) ∧ ForRoot l (.io x))
    (hcov : ∀ x m, addr / 4 * 4 ≤ x → x + m ≤ (addr + data.length + 3) / 4 * 4 → s.io.covers x m = true)
    (hok : ∀ x m, addr ≤ x → x + m ≤ addr + data.length → s.io.writeOk x m = true) :
    ∃ m', s.ioWrite (.fn q k) c tag addr data = .ok { s with io := { s.io with mem := m' } } ∧ Replaced s.io.mem m' addr data := by
  obtain ⟨reqs, m', rs, e1, e2, e3, e4⟩ := C16_rc_io_write c s.cfg.id s.io tag addr data hbm h0 hcov hok
  refine ⟨m', ?_, e4⟩
  unfold ioWrite
  rw [e1]
  have hd0 : ¬ data.length = 0 := fun h => h0 (List.length_eq_zero_iff.1 h)
  have hts : reqs = IoRegion.writeLoop c false data 0 addr := by
    unfold IoRegion.writeReqs at e1
    simp only [hbm, not_true_eq_false, if_false, hd0, decide_false] at e1
    cases e1; rfl
  have := ioWrites_root (q := q) (k := k) reqs s _ _ e2 ?_
  · simp only [bind, Except.bind]
    rw [this]
    simp only [e3]
  · intro s' hs t ht e'' cs he
    rw [hts] at ht
    obtain ⟨x, ch, rfl, i2, i3, i4, i5⟩ := ioWriteLoop_mem c data 0 addr (by omega) t ht
    obtain ⟨hio, f1, f2, -⟩ := IoRegion.writeTlp_fields c false x ch i2 i5
    have hck := IoRegion.writeTlp_check c x ch i2 i5
    obtain ⟨m1, m2⟩ := hr (x / 4 * 4) (by omega) (by omega)
    generalize IoRegion.writeTlp c false x ch = t at *
    refine request_root (hs ▸ C) (t := { t with tag := tag t }) (ty := .IO_WRITE) (tg := .io (x / 4 * 4)) hio.type (by simp [target, f1]) hck.1 hck.2
      m1 m2 f2 (htag t) ?_ (rc_ioWrite_good he)
    unfold rootGets
    rw [show ({ t with tag := tag t } : Tlp).fmtType = some .IO_WRITE from hio.type]
    simp only [he, bind, Except.bind]

/-! ### Requests for nobody -/

/-- Nobody gets a request that is refused; the only thing that comes back is the answer. -/
theorem settle_refused {s : Sys σ} {ty : TlpType} {t : Tlp} {fate : Fate} (h : Refused s.net ty t fate) :
    s.settle fate = .ok (s, (answer s.net fate).toList) := by
  cases h with
  | dev _ hd =>
    unfold Dropped at hd
    split at hd
    · obtain ⟨c, -, rfl⟩ := hd; rfl
    · subst hd; rfl
  | up _ hd =>
    unfold Dropped at hd
    split at hd
    · obtain ⟨c, -, rfl⟩ := hd; rfl
    · subst hd; rfl
  | switch _ hd =>
    split at hd
    · obtain ⟨c, -, rfl⟩ := hd; rfl
    · subst hd; rfl

/-- What the operations need: every request of the root complex for nobody comes back refused or not at all. -/
def Refuses (n : Node σ) (ok : Target → Prop) : Prop :=
  ∀ t ty tg, t.fmtType = some ty → target t ty = some tg → t.check = .ok true → ok tg → t.requester_id = ⟨0, 0, 0⟩ →
    ∀ s : Sys σ, s.net = n → ∃ cs, s.request .root t = .ok (s, cs) ∧ (cs = [] ∨ ∃ c, cs = [c] ∧ c.status = 1)

theorem request_nobody {s : Sys σ} {ty : TlpType} {t : Tlp} {fate : Fate} {t' : Tlp} (e : s.net.recv t = .ok fate)
    (hi : Intact t t') (h : (∃ path, fate = .open_ path) ∨ (Refused s.net ty t' fate ∧
      (NonPosted ty = true → ∃ id c c', answer s.net fate = some (.ok (.exit c')) ∧ IsUr c t' id ∧ Intact c c'))) :
    ∃ cs, s.request .root t = .ok (s, cs) ∧ (cs = [] ∨ ∃ c, cs = [c] ∧ c.status = 1) := by
  have e' : emit s.net .root t = .ok fate := e
  unfold request
  rw [e']
  rcases h with ⟨path, rfl⟩ | ⟨hr, ha⟩
  · exact ⟨[], rfl, .inl rfl⟩
  · simp only [bind, Except.bind, settle_refused hr]
    refine ⟨_, rfl, ?_⟩
    cases hn : NonPosted ty with
    | true =>
      obtain ⟨id, c, c', ea, hu, hc⟩ := ha hn
      have hc' : c'.fmtType = some .CPL ∧ c'.status = 1 ∧ c'.tag = c.tag := by
        rcases hc with rfl | rfl
        · exact ⟨hu.kind, hu.status, rfl⟩
        · exact ⟨hu.kind, hu.status, rfl⟩
      have ht : c'.tag = t.tag := by
        rw [hc'.2.2, hu.tag]
        rcases hi with rfl | rfl <;> rfl
      rw [ea]
      refine .inr ⟨c', ?_, hc'.2.1⟩
      simp [arrived, hc'.1, ht]
    | false =>
      have : answer s.net fate = none := by
        cases hr with
        | dev _ hd => unfold Dropped at hd; rw [hn] at hd; simp only [Bool.false_eq_true, if_false] at hd; subst hd; rfl
        | up _ hd => unfold Dropped at hd; rw [hn] at hd; simp only [Bool.false_eq_true, if_false] at hd; subst hd; rfl
        | switch _ hd => rw [hn] at hd; simp only [Bool.false_eq_true, if_false] at hd; subst hd; rfl
      rw [this]
      exact .inl rfl

theorem collect_bad {b : Bool} {cs : List Tlp} (h : cs = [] ∨ ∃ c, cs = [c] ∧ c.status = 1) :
    (Region.collect b cs).1 = [] ∨ ∃ c, (Region.collect b cs).1 = [c] ∧ c.status = 1 := by
  rcases h with rfl | ⟨c, rfl, hc⟩
  · exact .inl rfl
  · refine .inr ⟨c, ?_, hc⟩
    rw [Region.collect]
    have : c.status ≠ CplStatus.SC := by rw [hc]; decide
    simp [this]

theorem consume_bad {L : Nat} {cs : List Tlp} {acc : List UInt8} (hL : 0 < L) (h : cs = [] ∨ ∃ c, cs = [c] ∧ c.status = 1) :
    ∃ e, Region.consume L 0 cs acc = .error e := by
  rcases h with rfl | ⟨c, rfl, hc⟩
  · refine ⟨"Timeout", ?_⟩
    rw [Region.consume]; simp only [hL, if_true]
  · refine ⟨"Unsuccessful completion", ?_⟩
    rw [Region.consume]
    have : c.status ≠ CplStatus.SC := by rw [hc]; decide
    simp only [hL, if_true, this, ne_eq, not_false_eq_true]

theorem memRead_nobody {s : Sys σ} {c : ReqCfg} {ok : Target → Prop} (R : Refuses s.net ok) {tag : Tlp → Nat} {addr length attr tc : Nat}
    (hid : c.id = ⟨0, 0, 0⟩) (h0 : 0 < length) (hr : ∀ x, addr / 4 * 4 ≤ x → x < addr + length → ok (.mem x)) :
    ∃ e, s.memRead .root c tag addr length attr tc = .error e := by
  unfold memRead Region.read Region.readReqs
  have hl0 : ¬ length = 0 := by omega
  simp only [hl0, if_false, decide_false]
  split
  · exact ⟨_, rfl⟩
  · rw [Region.readLoop]
    simp only [Nat.sub_zero, h0, dite_true]
    obtain ⟨l1, l2, l3, l4⟩ := Region.readLen_facts c addr length h0
    generalize Region.readLen c addr length = L at l1 l2 l3 l4 ⊢
    obtain ⟨f1, f2, f3, f4, f5, f6, f7, f8, f9⟩ := Region.readTlp_fields c attr tc false addr L l1
    have hro := Region.readTlp_ok c attr tc false addr L l1 l3 l4
    have hk := hr (addr / 4 * 4) (by omega) (by omega)
    generalize Region.readTlp c attr tc false addr L = t at *
    obtain ⟨cs, e1, e2⟩ := R { t with tag := tag t } (if addr > 0xffffffff then .MEM_READ_64 else .MEM_READ) (.mem (addr / 4 * 4)) f4
      (by split <;> simp [target, f1]) hro.check hk (f6.trans hid) s rfl
    have h2 : s.op .root tag t = (Region.collect (Region.isMemRead t) cs).1 := by unfold op; rw [e1]
    obtain ⟨e, he⟩ := consume_bad (acc := []) l1 (h2 ▸ collect_bad (b := Region.isMemRead t) e2)
    refine ⟨e, ?_⟩
    simp only [bind, Except.bind, Region.consumeAll, he]

theorem ioRead_nobody {s : Sys σ} {c : ReqCfg} {ok : Target → Prop} (R : Refuses s.net ok) {tag : Tlp → Nat} {addr length : Nat}
    (hid : c.id = ⟨0, 0, 0⟩) (h0 : 0 < length) (hr : ∀ x, addr / 4 * 4 ≤ x → x < addr + length → ok (.io x)) :
    ∃ e, s.ioRead .root c tag addr length = .error e := by
  unfold ioRead IoRegion.read IoRegion.readReqs
  have hl0 : ¬ length = 0 := by omega
  simp only [hl0, if_false, decide_false]
  split
  · exact ⟨_, rfl⟩
  · rw [IoRegion.readLoop]
    simp only [Nat.sub_zero, h0, dite_true]
    obtain ⟨l1, l2, l3, -⟩ := IoRegion.len_facts addr length h0
    generalize IoRegion.len addr length = L at l1 l2 l3 ⊢
    obtain ⟨hio, f1, f2, f3⟩ := IoRegion.readTlp_ok c false addr L l1 l3
    have hck := IoRegion.readTlp_check c addr L l1 l3
    have hk := hr (addr / 4 * 4) (by omega) (by omega)
    generalize IoRegion.readTlp c false addr L = t at *
    obtain ⟨cs, e1, e2⟩ := R { t with tag := tag t } .IO_READ (.io (addr / 4 * 4)) hio.type
      (by simp [target, f1]) hck.1 hk (f2.trans hid) s rfl
    have h2 : s.op .root tag t = (Region.collect (Region.isMemRead t) cs).1 := by unfold op; rw [e1]
    rcases h2 ▸ collect_bad (b := Region.isMemRead t) e2 with he | ⟨x, he, hx⟩
    · refine ⟨"Timeout", ?_⟩
      simp only [bind, Except.bind, IoRegion.consumeAll, he]
    · refine ⟨"Unsuccessful completion", ?_⟩
      have : x.status ≠ CplStatus.SC := by rw [hx]; decide
      simp only [bind, Except.bind, IoRegion.consumeAll, he, ne_eq, this, not_false_eq_true, if_true]

theorem ioWrites_nobody {tag : Tlp → Nat} (ts : List Tlp) (s : Sys σ) (hne : ts ≠ [])
    (hq : ∀ t ∈ ts, ∃ cs, s.request .root { t with tag := tag t } = .ok (s, cs) ∧ (cs = [] ∨ ∃ c, cs = [c] ∧ c.status = 1)) :
    ∃ rs, ioWriteAll .root tag s ts = .ok (s, rs) ∧ ∃ e, IoRegion.checkAll rs = .error e := by
  have all : ∀ ts : List Tlp, (∀ t ∈ ts, ∃ cs, s.request .root { t with tag := tag t } = .ok (s, cs) ∧
      (cs = [] ∨ ∃ c, cs = [c] ∧ c.status = 1)) → ∃ rs, ioWriteAll .root tag s ts = .ok (s, rs) := by
    intro ts
    induction ts with
    | nil => exact fun _ => ⟨[], rfl⟩
    | cons t ts ih =>
      intro h
      obtain ⟨cs, e, -⟩ := h t List.mem_cons_self
      obtain ⟨rs, e'⟩ := ih fun t ht => h t (List.mem_cons_of_mem _ ht)
      rw [ioWriteAll, e]
      simp only [bind, Except.bind, e']
      exact ⟨_, rfl⟩
  cases ts with
  | nil => exact absurd rfl hne
  | cons t ts =>
    obtain ⟨cs, e, hb⟩ := hq t List.mem_cons_self
    obtain ⟨rs, e'⟩ := all ts fun t ht => hq t (List.mem_cons_of_mem _ ht)
    refine ⟨(Region.collect (Region.isMemRead t) cs).1 :: rs, ?_, ?_⟩
    · rw [ioWriteAll, e]
      simp only [bind, Except.bind, e']
    · rcases collect_bad (b := Region.isMemRead t) hb with he | ⟨x, he, hx⟩
      · rw [he]; exact ⟨_, rfl⟩
      · have : x.status ≠ CplStatus.SC := by rw [hx]; decide
        rw [he, IoRegion.checkAll]
        simp only [ne_eq, this, not_false_eq_true, if_true]
        exact ⟨_, rfl⟩

theorem ioWrite_nobody {s : Sys σ} {c : ReqCfg} {ok : Target → Prop} (R : Refuses s.net ok) {tag : Tlp → Nat} {addr : Nat} {data : List UInt8}
    (hid : c.id = ⟨0, 0, 0⟩) (h0 : data ≠ [])
    (hr : ∀ x, addr / 4 * 4 ≤ x → x < addr + data.length → ok (.io x)) :
    ∃ e, s.ioWrite .root c tag addr data = .error e := by
  have hd0 : ¬ data.length = 0 := fun h => h0 (List.length_eq_zero_iff.1 h)
  unfold ioWrite IoRegion.writeReqs
  simp only [hd0, if_false, decide_false]
  split
  · exact ⟨_, rfl⟩
  · obtain ⟨rs, e1, e, e2⟩ := ioWrites_nobody (tag := tag) (IoRegion.writeLoop c false data 0 addr) s
      (by rw [IoRegion.writeLoop]; simp only [show 0 < data.length by omega, dite_true]; exact List.cons_ne_nil _ _) (fun t ht => by
        obtain ⟨x, ch, rfl, i2, i3, i4, i5⟩ := ioWriteLoop_mem c data 0 addr (by omega) t ht
        obtain ⟨hio, f1, f2, -⟩ := IoRegion.writeTlp_fields c false x ch i2 i5
        have hck := IoRegion.writeTlp_check c x ch i2 i5
        have hk := hr (x / 4 * 4) (by omega) (by omega)
        generalize IoRegion.writeTlp c false x ch = t at *
        exact R { t with tag := tag t } .IO_WRITE (.io (x / 4 * 4)) hio.type (by simp [target, f1]) hck.1 hk (f2.trans hid) s rfl)
    refine ⟨e, ?_⟩
    simp only [bind, Except.bind, e1, e2]

theorem memWrites_nobody (ts : List Tlp) (s : Sys σ) (hq : ∀ t ∈ ts, ∃ cs, s.request .root t = .ok (s, cs)) :
    ts.foldlM (fun s t => do .ok (← s.request .root t).1) s = .ok s := by
  induction ts with
  | nil => rfl
  | cons t ts ih =>
    obtain ⟨cs, e⟩ := hq t List.mem_cons_self
    rw [List.foldlM_cons, e]
    exact ih fun t ht => hq t (List.mem_cons_of_mem _ ht)

theorem memWrite_nobody {s : Sys σ} {c : ReqCfg} {ok : Target → Prop} (R : Refuses s.net ok) {addr attr tc : Nat} {data : List UInt8}
    (hid : c.id = ⟨0, 0, 0⟩) (hbm : c.busMasterEnable = true) (h0 : data ≠ [])
    (hr : ∀ x, addr / 4 * 4 ≤ x → x < addr + data.length → ok (.mem x)) :
    s.memWrite .root c addr data attr tc = .ok s := by
  have hd0 : ¬ data.length = 0 := fun h => h0 (List.length_eq_zero_iff.1 h)
  unfold memWrite Region.write
  simp only [hbm, not_true_eq_false, if_false, hd0, decide_false, bind, Except.bind]
  refine memWrites_nobody _ s fun t ht => ?_
  obtain ⟨x, ch, rfl, i2, i3, i4, i5, i6⟩ := writeLoop_mem c attr tc data 0 addr (by omega) t ht
  obtain ⟨f1, f2, f3, f4, f5, f6, f7, f8, f9, f10⟩ := Region.writeTlp_fields c attr tc false x ch i2
  have hok := Region.writeTlp_ok c attr tc false x ch i2 i5 i6
  have hk := hr (x / 4 * 4) (by omega) (by omega)
  generalize Region.writeTlp c attr tc false x ch = t at *
  obtain ⟨cs, e1, -⟩ := R t (if x > 0xffffffff then .MEM_WRITE_64 else .MEM_WRITE) (.mem (x / 4 * 4)) f5
      (by split <;> simp [target, f1]) hok.check hk (f6.trans hid) s rfl
  exact ⟨cs, e1⟩

end Sys
end Pcie
