import Verif.Lemmas.Fabric
import Verif.Lemmas.Decode
import Verif.Lemmas.EnumTree2
import Verif.Lemmas.ScanNum
import Verif.Model.Enumerate
/-
Lemmas: enumeration sets up the registers of a hierarchy for routing.
-/
namespace Pcie
open Spec
variable {σ : Type}

/-! ### Which regions decode -/

/-- The target with this address. -/
def addrTg (io : Bool) (a : Nat) : Target := if io then .io a else .mem a

/-- No 32-bit BAR takes the address for one of its own, if memory below 4 GiB is allocated from `lo` on. -/
def Plain (lo : Nat) (io : Bool) (a : Nat) : Prop := a < 2 ^ 32 ∨ (io = false ∧ a < 2 ^ 64 ∧ a % 2 ^ 32 < lo)

/-- Regions as they are allocated. -/
structure Sane (lo : Nat) (all : List Region) : Prop where
  size : ∀ x ∈ all, x.size < 2 ^ 32
  low : ∀ x ∈ all, x.pool = .mem → lo ≤ x.base
  apart : all.Pairwise fun x y => ∀ io a, Has x io a → ¬ Has y io a

theorem Sane.sub {lo : Nat} {l l' : List Region} (h : Sane lo l) (hs : l'.Sublist l) : Sane lo l' :=
  ⟨fun x hx => h.size x (hs.subset hx), fun x hx => h.low x (hs.subset hx), h.apart.sublist hs⟩

theorem fnRes_small {c : Common σ} {cnt : Nat} {ws : List Window} {r : Option (Nat × Nat)} (_h : FnRes cnt c ws r)
    (hs : ∀ x ∈ fnRegions c ws r, x.size < 2 ^ 32) : ∀ w ∈ ws, w.k < 32 := by
  intro w hw
  have := hs ⟨poolOf c.bars w, w.base, 2 ^ w.k⟩ (List.mem_append_left _ (List.mem_map.2 ⟨w, hw, rfl⟩))
  exact (Nat.pow_lt_pow_iff_right (by decide)).1 this

theorem fnRes_good {c : Common σ} {cnt : Nat} {ws : List Window} {r : Option (Nat × Nat)} (h : FnRes cnt c ws r)
    (hs : ∀ x ∈ fnRegions c ws r, x.size < 2 ^ 32) : GoodBars c.bars :=
  fun addr io => layout_good io addr 0 c.bars ws h.lay (fnRes_small h hs)

theorem poolOf_io {bars : List BarReg} {w : Window} {io : Bool} (h : w.io = io) : io = true ↔ poolOf bars w = .io := by
  subst h
  unfold poolOf
  cases w.io
  · simp only [Bool.false_eq_true, if_false, false_iff]; split <;> simp
  · simp

theorem fnRes_decodes {c : Common σ} {cnt : Nat} {ws : List Window} {r : Option (Nat × Nat)} (h : FnRes cnt c ws r) {lo : Nat}
    (hs : Sane lo (fnRegions c ws r)) {io : Bool} {a : Nat} (hp : Plain lo io a) (hd : Decodes c.bars io a) :
    ∃ x ∈ fnRegions c ws r, Has x io a := by
  obtain ⟨hit, hd⟩ := hd
  have ha : a < 2 ^ 64 := by rcases hp with h | h; omega; exact h.2.1
  obtain ⟨r', e, hr'⟩ := matchBarFrom_sees io a 0 c.bars ws h.lay (fnRes_small h hs.size) ha
  rw [matchBar, e] at hd
  obtain ⟨w, hw, hio, hsee⟩ := hr'.1 (by rw [Except.ok.inj hd]; rfl)
  have hx : (⟨poolOf c.bars w, w.base, 2 ^ w.k⟩ : Region) ∈ fnRegions c ws r :=
    List.mem_append_left _ (List.mem_map.2 ⟨w, hw, rfl⟩)
  refine ⟨_, hx, poolOf_io hio, ?_⟩
  simp only [Window.sees, Window.contains, decide_eq_true_eq] at hsee
  by_cases hwide : w.wide = true
  · rw [if_pos hwide] at hsee; exact hsee
  · rw [if_neg hwide] at hsee
    rcases hp with hp | ⟨hp1, -, hp2⟩
    · rw [Nat.mod_eq_of_lt hp] at hsee; exact hsee
    · have := hs.low _ hx (by simp only [poolOf, hio, hp1, hwide]; simp)
      simp only at this
      omega

theorem fnRes_region {c : Common σ} {cnt : Nat} {ws : List Window} {r : Option (Nat × Nat)} (h : FnRes cnt c ws r)
    (hs : ∀ w ∈ ws, w.k < 32) {w : Window} (hw : w ∈ ws) {io : Bool} {a : Nat} (hio : w.io = io) (hc : w.contains a = true)
    (ha : a < 2 ^ 32 ∨ w.wide = true ∧ a < 2 ^ 64) : Decodes c.bars io a := by
  obtain ⟨r', e, hr'⟩ := matchBarFrom_sees io a 0 c.bars ws h.lay hs (by omega)
  have : r'.isSome := hr'.2 ⟨w, hw, hio, by
    rw [Window.sees]
    rcases ha with ha | ha
    · rw [Nat.mod_eq_of_lt ha, ite_self]; exact hc
    · rw [if_pos ha.1]; exact hc⟩
  obtain ⟨hit, e'⟩ := Option.isSome_iff_exists.1 this
  exact ⟨hit, by rw [matchBar, e, e']⟩

/-- The base address registers of all functions of a bus and behind it. -/
def barsOf : Bus σ → List (List BarReg)
  | .nil => []
  | .ep f _ rest => f.bars :: barsOf rest
  | .br f _ child rest => f.bars :: (barsOf child ++ barsOf rest)

/-- Not both decode the address. -/
def Excl (io : Bool) (a : Nat) (B B' : List BarReg) : Prop := ¬ (Decodes B io a ∧ Decodes B' io a)

theorem mapped_claims {sib : Prop} {b : Bus σ} {own all : List Region} {brs : List (Br σ)} (h : Mapped sib b own brs all)
    {lo : Nat} {io : Bool} {a : Nat} (hp : Plain lo io a) : Sane lo all →
    (∀ B ∈ barsOf b, GoodBars B) ∧ (∀ B ∈ barsOf b, Decodes B io a → ∃ x ∈ all, Has x io a) ∧ (barsOf b).Pairwise (Excl io a) := by
  induction h with
  | nil => intro _; exact ⟨by simp [barsOf], by simp [barsOf], .nil⟩
  | ep f d ws r rest own brs all hf hm hsib ih =>
    intro hs
    obtain ⟨i0, i1, i2⟩ := ih (hs.sub (List.sublist_append_right _ _))
    have hs1 := hs.sub (List.sublist_append_left _ _)
    have hd := fun hd => fnRes_decodes hf hs1 hp hd
    refine ⟨?_, ?_, ?_⟩
    · intro B hB
      rcases List.mem_cons.1 hB with rfl | hB
      · exact fnRes_good hf hs1.size
      · exact i0 B hB
    · intro B hB hB'
      rcases List.mem_cons.1 hB with rfl | hB
      · obtain ⟨x, hx, hx'⟩ := hd hB'
        exact ⟨x, List.mem_append_left _ hx, hx'⟩
      · obtain ⟨x, hx, hx'⟩ := i1 B hB hB'
        exact ⟨x, List.mem_append_right _ hx, hx'⟩
    · refine List.pairwise_cons.2 ⟨?_, i2⟩
      rintro B hB ⟨h1, h2⟩
      obtain ⟨x, hx, hx'⟩ := hd h1
      obtain ⟨y, hy, hy'⟩ := i1 B hB h2
      exact (List.pairwise_append.1 hs.apart).2.2 x hx y hy io a hx' hy'
  | br f d ws r child rest cown cbrs call own brs all hf hc hm _ _ _ _ _ ihc ih =>
    intro hs
    have hsr := hs.sub (List.sublist_append_right _ _)
    obtain ⟨i0, i1, i2⟩ := ih (hsr.sub (List.sublist_append_right _ _))
    obtain ⟨c0, c1, c2⟩ := ihc (hsr.sub (List.sublist_append_left _ _))
    have hs1 := hs.sub (List.sublist_append_left _ _)
    have hd := fun hd => fnRes_decodes hf hs1 hp hd
    have htail : ∀ B ∈ barsOf child ++ barsOf rest, Decodes B io a → ∃ x ∈ call ++ all, Has x io a := by
      intro B hB hB'
      rcases List.mem_append.1 hB with hB | hB
      · obtain ⟨x, hx, hx'⟩ := c1 B hB hB'
        exact ⟨x, List.mem_append_left _ hx, hx'⟩
      · obtain ⟨x, hx, hx'⟩ := i1 B hB hB'
        exact ⟨x, List.mem_append_right _ hx, hx'⟩
    refine ⟨?_, ?_, ?_⟩
    · intro B hB
      rcases List.mem_cons.1 hB with rfl | hB
      · exact fnRes_good hf hs1.size
      · rcases List.mem_append.1 hB with hB | hB
        · exact c0 B hB
        · exact i0 B hB
    · intro B hB hB'
      rcases List.mem_cons.1 hB with rfl | hB
      · obtain ⟨x, hx, hx'⟩ := hd hB'
        exact ⟨x, List.mem_append_left _ hx, hx'⟩
      · obtain ⟨x, hx, hx'⟩ := htail B hB hB'
        exact ⟨x, List.mem_append_right _ hx, hx'⟩
    · refine List.pairwise_cons.2 ⟨?_, List.pairwise_append.2 ⟨c2, i2, ?_⟩⟩
      · rintro B hB ⟨h1, h2⟩
        obtain ⟨x, hx, hx'⟩ := hd h1
        obtain ⟨y, hy, hy'⟩ := htail B hB h2
        exact (List.pairwise_append.1 hs.apart).2.2 x hx y hy io a hx' hy'
      · rintro B hB B' hB' ⟨h1, h2⟩
        obtain ⟨x, hx, hx'⟩ := c1 B hB h1
        obtain ⟨y, hy, hy'⟩ := i1 B' hB' h2
        exact (List.pairwise_append.1 hsr.apart).2.2 x hx y hy io a hx' hy'

/-! ### Addresses -/

mutual
/-- The base address registers of all functions of a hierarchy. -/
def Node.claims : Node σ → List (List BarReg)
  | .none => []
  | .dev _ fns => fns.map (·.bars)
  | .sw up ports => up.bars :: ports.claims
@[inherit_doc Node.claims] def Ports.claims : Ports σ → List (List BarReg)
  | .nil => []
  | .cons b n rest => b.bars :: (n.claims ++ rest.claims)
end

theorem barsOf_fns (fns : List (EpFn σ)) :
    barsOf (fns.foldr (fun f rest => Phys.ep f.id.device f.id.function f.toEp rest) .nil).bus = fns.map (·.bars) := by
  induction fns with
  | nil => rfl
  | cons f fns ih => simp only [List.foldr_cons, Phys.bus, barsOf, List.map_cons, ih]

mutual
theorem Node.barsOf_bus : (n : Node σ) → barsOf n.bus.bus = n.claims
  | .none => rfl
  | .dev _ fns => by rw [Node.bus, Node.claims, barsOf_fns]
  | .sw up ports => by
    rw [Node.bus, Node.claims, Phys.bus, barsOf, Ports.barsOf_bus ports, Phys.bus, barsOf, List.append_nil]
theorem Ports.barsOf_bus : (ports : Ports σ) → barsOf ports.bus.bus = ports.claims
  | .nil => rfl
  | .cons b n rest => by
    rw [Ports.bus, Ports.claims, Phys.bus, barsOf, Node.barsOf_bus n, Ports.barsOf_bus rest]
end

theorem ports_mem : ∀ (ports : Ports σ) (x : BrFn σ × Node σ), x ∈ ports.list →
    x.1.bars ∈ ports.claims ∧ ∀ B ∈ x.2.claims, B ∈ ports.claims
  | .nil, x, h => by simp [Ports.list] at h
  | .cons b n rest, x, h => by
    rw [Ports.claims]
    rcases List.mem_cons.1 h with rfl | h
    · exact ⟨by simp, fun B hB => List.mem_cons_of_mem _ (List.mem_append_left _ hB)⟩
    · obtain ⟨h1, h2⟩ := ports_mem rest x h
      exact ⟨List.mem_cons_of_mem _ (List.mem_append_right _ h1), fun B hB => List.mem_cons_of_mem _ (List.mem_append_right _ (h2 B hB))⟩

theorem ports_excl {R : List BarReg → List BarReg → Prop} (hsym : ∀ a b, R a b → R b a) : ∀ (ports : Ports σ), ports.claims.Pairwise R →
    ∀ (i j : Nat) (x y : BrFn σ × Node σ), ports.list[i]? = some x → ports.list[j]? = some y →
      (∀ B ∈ y.2.claims, R x.1.bars B) ∧ (i ≠ j → ∀ B ∈ x.2.claims, ∀ B' ∈ y.2.claims, R B B') ∧ x.2.claims.Pairwise R
  | .nil, _, _, _, _, _, h, _ => by simp [Ports.list] at h
  | .cons b n rest, hp, i, j, x, y, hi, hj => by
    rw [Ports.claims] at hp
    obtain ⟨p1, p2⟩ := List.pairwise_cons.1 hp
    obtain ⟨p3, p4, p5⟩ := List.pairwise_append.1 p2
    rw [Ports.list] at hi hj
    cases i with
    | zero =>
      obtain rfl : (b, n) = x := by simpa using hi
      cases j with
      | zero =>
        obtain rfl : (b, n) = y := by simpa using hj
        exact ⟨fun B hB => p1 B (List.mem_append_left _ hB), fun h => absurd rfl h, p3⟩
      | succ j =>
        have hm := ports_mem rest y (List.mem_of_getElem? (by simpa using hj))
        exact ⟨fun B hB => p1 B (List.mem_append_right _ (hm.2 B hB)), fun _ B hB B' hB' => p5 B hB B' (hm.2 B' hB'), p3⟩
    | succ i =>
      have hx : rest.list[i]? = some x := by simpa using hi
      have hm := ports_mem rest x (List.mem_of_getElem? hx)
      cases j with
      | zero =>
        obtain rfl : (b, n) = y := by simpa using hj
        exact ⟨fun B hB => hsym _ _ (p5 B hB _ hm.1), fun _ B hB B' hB' => hsym _ _ (p5 B' hB' B (hm.2 B hB)),
          (ports_excl hsym rest p4 i i x x hx hx).2.2⟩
      | succ j =>
        obtain ⟨a1, a2, a3⟩ := ports_excl hsym rest p4 i j x y hx (by simpa using hj)
        exact ⟨a1, fun h => a2 (by omega), a3⟩

theorem fnAt_claims {n : Node σ} {path : List Nat} {k : Nat} {f : EpFn σ} (h : FnAt n path k f) : f.bars ∈ n.claims := by
  induction h with
  | dev h => rw [Node.claims]; exact List.mem_map.2 ⟨_, List.mem_of_getElem? h, rfl⟩
  | sw h _ ih => rw [Node.claims]; exact List.mem_cons_of_mem _ ((ports_mem _ _ (List.mem_of_getElem? h)).2 _ ih)

theorem brIn_claims {n : Node σ} {b : BrFn σ} (h : BrIn n b) : b.bars ∈ n.claims := by
  induction h with
  | up => rw [Node.claims]; exact List.mem_cons_self ..
  | port h => rw [Node.claims]; exact List.mem_cons_of_mem _ (ports_mem _ _ h).1
  | deeper h _ ih => rw [Node.claims]; exact List.mem_cons_of_mem _ ((ports_mem _ _ h).2 _ ih)

theorem fn_br_excl {R : List BarReg → List BarReg → Prop} (hsym : ∀ a b, R a b → R b a) {n : Node σ} {path : List Nat} {k : Nat}
    {f : EpFn σ} (h : FnAt n path k f) : n.claims.Pairwise R → ∀ b, BrIn n b → R f.bars b.bars := by
  induction h with
  | dev h => intro _ b hb; cases hb
  | @sw up ports j b n path k f hj hf ih =>
    intro hp b' hb
    rw [Node.claims] at hp
    obtain ⟨p1, p2⟩ := List.pairwise_cons.1 hp
    have hfc := fnAt_claims hf
    cases hb with
    | up => exact hsym _ _ (p1 _ ((ports_mem _ _ (List.mem_of_getElem? hj)).2 _ hfc))
    | port h =>
      obtain ⟨i, hi⟩ := List.getElem?_of_mem h
      exact hsym _ _ ((ports_excl hsym _ p2 i j _ _ hi hj).1 _ hfc)
    | deeper h hb =>
      obtain ⟨i, hi⟩ := List.getElem?_of_mem h
      by_cases hij : j = i
      · subst hij
        rw [hj] at hi
        cases hi
        exact ih (ports_excl hsym _ p2 j j _ _ hj hj).2.2 _ hb
      · exact (ports_excl hsym _ p2 j i _ _ hj hi).2.1 hij _ hfc _ (brIn_claims hb)

theorem excl_symm {io : Bool} {a : Nat} (B B' : List BarReg) (h : Excl io a B B') : Excl io a B' B := fun h' => h ⟨h'.2, h'.1⟩

theorem forSecondary_addr {b : BrFn σ} {io : Bool} {a : Nat} : ForSecondary b (addrTg io a) ↔ Forwards b.toBr io a := by
  cases io <;> rfl

theorem for_addr {f : EpFn σ} {io : Bool} {a : Nat} : EpFn.For f (addrTg io a) ↔ Decodes f.bars io a := by
  cases io <;> rfl

theorem forFn_addr {id : PcieId} {B : List BarReg} {io : Bool} {a : Nat} : ForFn id B (addrTg io a) ↔ Decodes B io a := by
  cases io <;> rfl

theorem routed_addr (io : Bool) (a : Nat) : Routed (addrTg io a) := by cases io <;> trivial

/-- The windows of the ports of a switch. -/
theorem mapped_ports {sib : Prop} : ∀ (ports : Ports σ) {own all : List Region} {brs : List (Br σ)}, Mapped sib ports.bus.bus own brs all →
    brs = ports.list.map (fun x => x.1.toBr) ∧
    (∀ io a, ports.list.Pairwise fun x y => ¬ (Forwards x.1.toBr io a ∧ Forwards y.1.toBr io a)) ∧
    ∀ x ∈ ports.list, ∃ cown cbrs call, Mapped sib x.2.bus.bus cown cbrs call ∧ call.Sublist all ∧
      (∀ y ∈ call, ∀ io a, Has y io a → Forwards x.1.toBr io a) ∧ ∀ g ∈ cbrs, ∀ io a, Forwards g io a → Forwards x.1.toBr io a
  | .nil, own, all, brs, h => by
    rw [Ports.bus, Phys.bus] at h
    cases h
    exact ⟨rfl, fun _ _ => .nil, by simp [Ports.list]⟩
  | .cons b n rest, own, all, brs, h => by
    rw [Ports.bus, Phys.bus] at h
    cases h with
    | br _ _ ws r _ _ cown cbrs call own brs all hf hc hm h1 h2 h3 h4 h5 =>
      obtain ⟨e, hpw, hall⟩ := mapped_ports rest hm
      refine ⟨by rw [Ports.list, e]; rfl, fun io a => ?_, ?_⟩
      · rw [Ports.list]
        refine List.pairwise_cons.2 ⟨?_, hpw io a⟩
        rintro x hx ⟨f1, f2⟩
        exact h3 x.1.toBr (by rw [e]; exact List.mem_map.2 ⟨x, hx, rfl⟩) io a f1 f2
      · rw [Ports.list]
        intro x hx
        rcases List.mem_cons.1 hx with rfl | hx
        · exact ⟨cown, cbrs, call, hc, (List.sublist_append_left _ _).trans (List.sublist_append_right _ _), h1, h2⟩
        · obtain ⟨o, g, c, m1, m2, m3, m4⟩ := hall x hx
          exact ⟨o, g, c, m1, m2.trans ((List.sublist_append_right _ _).trans (List.sublist_append_right _ _)), m3, m4⟩

/-- What a node needs for `Configured`. -/
def AddrOk (io : Bool) (a lo : Nat) (n : Node σ) : Prop :=
  (∀ b, BrIn n b → b.root = false) → ∀ own brs all, Mapped False n.bus.bus own brs all → Sane lo all → Configured (addrTg io a) n

theorem conf_sw {io : Bool} {a lo : Nat} (hp : Plain lo io a) {up : BrFn σ} {ports : Ports σ} (hg : GoodBars up.bars) {own all : List Region}
    {brs : List (Br σ)} (hm : Mapped False ports.bus.bus own brs all) (hs : Sane lo all)
    (h3 : ∀ g ∈ brs, Forwards g io a → Forwards up.toBr io a)
    (hr : ∀ x ∈ ports.list, x.1.root = false ∧ ∀ b, BrIn x.2 b → b.root = false)
    (ih : ∀ x ∈ ports.list, AddrOk io a lo x.2) : Configured (addrTg io a) (.sw up ports) := by
  obtain ⟨e, hpw, hall⟩ := mapped_ports ports hm
  obtain ⟨c0, -, -⟩ := mapped_claims hm hp hs
  rw [Ports.barsOf_bus] at c0
  refine .sw up ports hg (fun x hx => ⟨c0 _ (ports_mem _ _ hx).1, (hr x hx).1⟩) ?_ ?_ ?_ ?_ ?_
  · intro x hx h
    rw [forSecondary_addr] at h ⊢
    exact h3 x.1.toBr (by rw [e]; exact List.mem_map.2 ⟨x, hx, rfl⟩) h
  · refine (hpw io a).imp ?_
    intro x y h h'
    exact h ⟨forSecondary_addr.1 h'.1, forSecondary_addr.1 h'.2⟩
  · intro x hx path k f hf hfor
    obtain ⟨o, g, c, m1, m2, m3, m4⟩ := hall x hx
    rw [for_addr] at hfor
    have := (mapped_claims m1 hp (hs.sub m2)).2.1 f.bars (by rw [Node.barsOf_bus]; exact fnAt_claims hf) hfor
    obtain ⟨y, hy, hy'⟩ := this
    rw [forSecondary_addr]
    exact m3 y hy io a hy'
  · rintro x hx u ps hxu
    obtain ⟨o, g, c, m1, m2, m3, m4⟩ := hall x hx
    refine ⟨(hr x hx).2 u (by rw [hxu]; exact .up), fun h => ?_⟩
    rw [forSecondary_addr] at h ⊢
    rw [hxu, Node.bus, Phys.bus] at m1
    cases m1
    exact m4 u.toBr (by simp) io a h
  · intro x hx
    obtain ⟨o, g, c, m1, m2, m3, m4⟩ := hall x hx
    exact ih x hx (hr x hx).2 o g c m1 (hs.sub m2)

mutual
theorem Node.addrOk {io : Bool} {a lo : Nat} (hp : Plain lo io a) : (n : Node σ) → AddrOk io a lo n
  | .none => fun _ _ _ _ _ _ => .none
  | .dev bus fns => fun _ own brs all hm hs => by
    obtain ⟨c0, c1, c2⟩ := mapped_claims hm hp hs
    rw [Node.barsOf_bus, Node.claims] at c0 c2
    refine .dev bus fns (fun f hf => c0 _ (List.mem_map.2 ⟨f, hf, rfl⟩)) ?_
    refine (List.pairwise_map.1 c2).imp ?_
    intro f g h h'
    exact h ⟨for_addr.1 h'.1, for_addr.1 h'.2⟩
  | .sw up ports => fun hr own brs all hm hs => by
    have hg := (mapped_claims hm hp hs).1 up.bars (by rw [Node.barsOf_bus, Node.claims]; exact List.mem_cons_self ..)
    rw [Node.bus, Phys.bus] at hm
    cases hm with
    | br _ _ ws r _ _ cown cbrs call own brs all hf hc hm h1 h2 h3 h4 h5 =>
      refine conf_sw hp hg hc (hs.sub ((List.sublist_append_left _ _).trans (List.sublist_append_right _ _)))
        (fun g hg => h2 g hg io a) ?_ (Ports.addrOk hp ports)
      intro x hx
      exact ⟨hr _ (.port hx), fun b hb => hr b (.deeper hx hb)⟩
theorem Ports.addrOk {io : Bool} {a lo : Nat} (hp : Plain lo io a) : (ports : Ports σ) → ∀ x ∈ ports.list, AddrOk io a lo x.2
  | .nil, x, hx => by simp [Ports.list] at hx
  | .cons b n rest, x, hx => by
    rw [Ports.list] at hx
    rcases List.mem_cons.1 hx with rfl | hx
    · exact Node.addrOk hp n
    · exact Ports.addrOk hp rest x hx
end

/-! ### Bus numbers -/

/-- The buses behind the bridges are numbered from `last + 1` on, depth first. -/
def Nums : (last : Nat) → Phys σ → Prop
  | _, .nil => True
  | last, .ep _ _ _ rest => Nums last rest
  | last, .br _ _ _ f child rest => f.secBus = last + 1 ∧ f.subBus = last + 1 + bridges child ∧ Nums (last + 1) child ∧
      Nums (last + 1 + bridges child) rest

theorem bridges_numbered (n last : Nat) (b : Phys σ) : bridges (numbered n last b) = bridges b := by
  induction b generalizing n last with
  | nil => rfl
  | ep d fn f rest ih => simp only [numbered, bridges, ih]
  | br d fn dsp f child rest ihc ih => simp only [numbered, bridges, ih, ihc]

theorem nums_numbered (n last : Nat) (b : Phys σ) : Nums last (numbered n last b) := by
  induction b generalizing n last with
  | nil => trivial
  | ep d fn f rest ih => exact ih n last
  | br d fn dsp f child rest ihc ih =>
    simp only [numbered, Nums, bridges_numbered, true_and]
    exact ⟨ihc _ _, ih _ _⟩

theorem bridges_fns (fns : List (EpFn σ)) :
    bridges (fns.foldr (fun f rest => Phys.ep f.id.device f.id.function f.toEp rest) .nil) = 0 := by
  induction fns with
  | nil => rfl
  | cons f fns ih => simpa [bridges] using ih

/-- The bus numbers of a port of a switch. -/
structure FabNums (last top : Nat) (x : BrFn σ × Node σ) : Prop where
  sec : last < x.1.secBus
  sub : x.1.subBus = x.1.secBus + bridges x.2.bus
  top : x.1.subBus ≤ top
  child : Nums x.1.secBus x.2.bus
  ids : FabNodeIds x.1.secBus x.2

theorem ports_nums : ∀ (ports : Ports σ) {last m : Nat}, Nums last ports.bus → FabPortIds m ports →
    (∀ x ∈ ports.list, FabNums last (last + bridges ports.bus) x ∧ x.1.id.bus = m ∧ x.1.root = false) ∧
    ports.list.Pairwise fun x y => x.1.subBus < y.1.secBus
  | .nil, last, m, _, _ => ⟨by simp [Ports.list], .nil⟩
  | .cons b n rest, last, m, hn, hi => by
    rw [Ports.bus, Nums] at hn
    obtain ⟨h1, h2, h3, h4⟩ := hn
    rw [FabPortIds] at hi
    obtain ⟨i1, i2, i3, i4⟩ := hi
    obtain ⟨r1, r2⟩ := ports_nums rest h4 i4
    rw [Ports.list, Ports.bus, bridges]
    refine ⟨?_, List.pairwise_cons.2 ⟨?_, r2⟩⟩
    · intro x hx
      rcases List.mem_cons.1 hx with rfl | hx
      · refine ⟨⟨by simp only; omega, by simp only; omega, by simp only; omega, by simp only; rw [h1]; exact h3, i3⟩, i1, i2⟩
      · obtain ⟨⟨a1, a2, a3, a4, a5⟩, a6⟩ := r1 x hx
        exact ⟨⟨by omega, a2, by omega, a4, a5⟩, a6⟩
    · intro x hx
      have := (r1 x hx).1.sec
      simp only; omega

theorem sw_nums {up : BrFn σ} {ports : Ports σ} {last m : Nat} (hn : Nums last (Node.sw up ports).bus) (hi : FabNodeIds m (.sw up ports)) :
    up.secBus = last + 1 ∧ up.subBus = last + 1 + bridges ports.bus ∧ bridges (Node.sw up ports).bus = 1 + bridges ports.bus ∧
    up.id.bus = m ∧ up.root = false ∧ Nums (last + 1) ports.bus ∧ FabPortIds up.secBus ports := by
  rw [Node.bus, Nums] at hn
  rw [FabNodeIds] at hi
  obtain ⟨h1, h2, h3, -⟩ := hn
  refine ⟨h1, h2, ?_, hi.1, hi.2.1, h3, hi.2.2⟩
  rw [Node.bus, bridges]; simp [bridges]

/-- The bus number of a function: that of the link, or one of the range behind it. -/
theorem fn_bus {n : Node σ} {path : List Nat} {k : Nat} {f : EpFn σ} (h : FnAt n path k f) : ∀ {last m : Nat}, Nums last n.bus → FabNodeIds m n →
    (f.id.bus = m ∧ ∀ b, ¬ BrIn n b) ∨ (last < f.id.bus ∧ f.id.bus ≤ last + bridges n.bus) := by
  induction h with
  | dev h =>
    intro last m hn hi
    rw [FabNodeIds] at hi
    exact .inl ⟨hi.1 _ (List.mem_of_getElem? h), fun b hb => by cases hb⟩
  | @sw up ports j b n path k f hj hf ih =>
    intro last m hn hi
    obtain ⟨s1, s2, s3, s4, s5, s6, s7⟩ := sw_nums hn hi
    obtain ⟨p1, p2⟩ := ports_nums ports s6 s7
    obtain ⟨⟨a1, a2, a3, a4, a5⟩, a6⟩ := p1 _ (List.mem_of_getElem? hj)
    simp only at a1 a2 a3 a4 a5
    rcases ih a4 a5 with ⟨h, -⟩ | h <;> right <;> omega

/-- The bus number of a bridge. -/
theorem brIn_bus {n : Node σ} {b : BrFn σ} (h : BrIn n b) : ∀ {last m : Nat}, Nums last n.bus → FabNodeIds m n →
    b.root = false ∧ (b.id.bus = m ∨ (last < b.id.bus ∧ b.id.bus ≤ last + bridges n.bus)) := by
  induction h with
  | @up up ports =>
    intro last m hn hi
    obtain ⟨s1, s2, s3, s4, s5, s6, s7⟩ := sw_nums hn hi
    exact ⟨s5, .inl s4⟩
  | @port up ports b n h =>
    intro last m hn hi
    obtain ⟨s1, s2, s3, s4, s5, s6, s7⟩ := sw_nums hn hi
    obtain ⟨p1, p2⟩ := ports_nums ports s6 s7
    obtain ⟨⟨a1, a2, a3, a4, a5⟩, a6, a7⟩ := p1 _ h
    simp only at a1 a2 a3 a4 a5 a6 a7
    exact ⟨a7, .inr ⟨by omega, by omega⟩⟩
  | @deeper up ports b n b' h hb ih =>
    intro last m hn hi
    obtain ⟨s1, s2, s3, s4, s5, s6, s7⟩ := sw_nums hn hi
    obtain ⟨p1, p2⟩ := ports_nums ports s6 s7
    obtain ⟨⟨a1, a2, a3, a4, a5⟩, a6, a7⟩ := p1 _ h
    simp only at a1 a2 a3 a4 a5
    obtain ⟨i1, i2⟩ := ih a4 a5
    exact ⟨i1, .inr ⟨by rcases i2 with i2 | i2 <;> omega, by rcases i2 with i2 | i2 <;> omega⟩⟩

theorem ports_fn_br {ports : Ports σ} {last m : Nat} (hn : Nums last ports.bus) (hi : FabPortIds m ports) (hm : m ≤ last)
    {j : Nat} {x : BrFn σ × Node σ} (hj : ports.list[j]? = some x) {path : List Nat} {k : Nat} {f : EpFn σ} (hf : FnAt x.2 path k f)
    (ih : ∀ b, BrIn x.2 b → b.id.bus ≠ f.id.bus) :
    ∀ y ∈ ports.list, y.1.id.bus ≠ f.id.bus ∧ ∀ b, BrIn y.2 b → b.id.bus ≠ f.id.bus := by
  obtain ⟨p1, p2⟩ := ports_nums ports hn hi
  obtain ⟨⟨a1, a2, a3, a4, a5⟩, a6, -⟩ := p1 _ (List.mem_of_getElem? hj)
  have hfb := fn_bus hf a4 a5
  intro y hy
  obtain ⟨⟨b1, b2, b3, b4, b5⟩, b6, -⟩ := p1 _ hy
  refine ⟨by rcases hfb with ⟨h, -⟩ | h <;> omega, ?_⟩
  intro b hb
  obtain ⟨i, hi'⟩ := List.getElem?_of_mem hy
  by_cases hij : i = j
  · subst hij
    rw [hj] at hi'
    cases hi'
    exact ih b hb
  · obtain ⟨-, hbb⟩ := brIn_bus hb b4 b5
    have : x.1.subBus < y.1.secBus ∨ y.1.subBus < x.1.secBus :=
      pairwise_get (R := fun x y : BrFn σ × Node σ => x.1.subBus < y.1.secBus ∨ y.1.subBus < x.1.secBus)
        (fun _ _ h => h.symm) (p2.imp Or.inl) hj hi' (Ne.symm hij)
    rcases hfb with ⟨h, -⟩ | h <;> rcases hbb with h' | h' <;> omega

/-- Bridges and functions of devices are on different buses. -/
theorem fn_br_bus {n : Node σ} {path : List Nat} {k : Nat} {f : EpFn σ} (h : FnAt n path k f) : ∀ {last m : Nat}, Nums last n.bus →
    FabNodeIds m n → m ≤ last → ∀ b, BrIn n b → b.id.bus ≠ f.id.bus := by
  induction h with
  | dev h => intro last m _ _ _ b hb; cases hb
  | @sw up ports j b n path k f hj hf ih =>
    intro last m hn hi hm b' hb
    obtain ⟨s1, s2, s3, s4, s5, s6, s7⟩ := sw_nums hn hi
    obtain ⟨p1, p2⟩ := ports_nums ports s6 s7
    obtain ⟨⟨a1, a2, a3, a4, a5⟩, a6⟩ := p1 _ (List.mem_of_getElem? hj)
    have key := ports_fn_br s6 s7 (by omega) hj hf (ih a4 a5 (Nat.le_refl _))
    cases hb with
    | up =>
      simp only at a1 a2 a3 a4 a5
      rcases fn_bus hf a4 a5 with ⟨h, -⟩ | h <;> omega
    | port h => exact (key _ h).1
    | deeper h hb => exact (key _ h).2 _ hb

/-- What a node needs for completions. -/
def CplOk (i : PcieId) (n : Node σ) : Prop :=
  ∀ last m, Nums last n.bus → FabNodeIds m n → m ≤ last → (∀ B ∈ n.claims, GoodBars B) → Configured (.cpl i) n

theorem conf_sw_cpl {i : PcieId} {up : BrFn σ} {ports : Ports σ} (hg : ∀ B ∈ (Node.sw up ports).claims, GoodBars B) {last m : Nat}
    (hn : Nums last ports.bus) (hi : FabPortIds m ports) (hu : up.secBus ≤ last + 1 ∧ last + bridges ports.bus ≤ up.subBus)
    (ih : ∀ x ∈ ports.list, CplOk i x.2) : Configured (.cpl i) (.sw up ports) := by
  obtain ⟨p1, p2⟩ := ports_nums ports hn hi
  rw [Node.claims] at hg
  have hg' := fun B hB => hg B (List.mem_cons_of_mem _ hB)
  refine .sw up ports (hg _ (List.mem_cons_self ..)) (fun x hx => ⟨hg' _ (ports_mem _ _ hx).1, (p1 x hx).2.2⟩) ?_ ?_ ?_ ?_ ?_
  · rintro x hx ⟨h1, h2, h3⟩
    obtain ⟨⟨a1, a2, a3, a4, a5⟩, a6⟩ := p1 x hx
    exact ⟨by omega, by omega, h3⟩
  · refine p2.imp ?_
    rintro x y h ⟨⟨h1, h2, -⟩, h3, h4, -⟩
    omega
  · intro x hx path k f hf hfor
    obtain ⟨⟨a1, a2, a3, a4, a5⟩, a6⟩ := p1 x hx
    have hfor : i = f.id := hfor
    subst hfor
    have hb : x.1.secBus ≤ f.id.bus ∧ f.id.bus ≤ x.1.subBus := by
      rcases fn_bus hf a4 a5 with ⟨h, -⟩ | h <;> omega
    exact ⟨hb.1, hb.2, fun h => by rw [h] at hb; simp only at hb; omega⟩
  · intro x hx u ps hxu
    obtain ⟨⟨a1, a2, a3, a4, a5⟩, a6⟩ := p1 x hx
    rw [hxu] at a4 a5 a2
    obtain ⟨s1, s2, s3, s4, s5, s6, s7⟩ := sw_nums a4 a5
    refine ⟨s5, ?_⟩
    rintro ⟨h1, h2, h3⟩
    exact ⟨by omega, by omega, h3⟩
  · intro x hx
    obtain ⟨⟨a1, a2, a3, a4, a5⟩, a6⟩ := p1 x hx
    exact ih x hx _ _ a4 a5 (Nat.le_refl _) fun B hB => hg' B ((ports_mem _ _ hx).2 B hB)

mutual
theorem Node.cplOk {i : PcieId} : (n : Node σ) → CplOk i n
  | .none => fun _ _ _ _ _ _ => .none
  | .dev bus fns => fun last m hn hi hm hg => by
    rw [Node.claims] at hg
    rw [FabNodeIds] at hi
    refine .dev bus fns (fun f hf => hg _ (List.mem_map.2 ⟨f, hf, rfl⟩)) (hi.2.imp ?_)
    rintro f g h ⟨h1, h2⟩
    have h1 : i = f.id := h1
    have h2 : i = g.id := h2
    exact h (h1.symm.trans h2)
  | .sw up ports => fun last m hn hi hm hg => by
    obtain ⟨s1, s2, s3, s4, s5, s6, s7⟩ := sw_nums hn hi
    exact conf_sw_cpl hg s6 s7 ⟨by omega, by omega⟩ (Ports.cplOk ports)
theorem Ports.cplOk {i : PcieId} : (ports : Ports σ) → ∀ x ∈ ports.list, CplOk i x.2
  | .nil, x, hx => by simp [Ports.list] at hx
  | .cons b n rest, x, hx => by
    rw [Ports.list] at hx
    rcases List.mem_cons.1 hx with rfl | hx
    · exact Node.cplOk n
    · exact Ports.cplOk rest x hx
end

/-! ### Enumeration -/

theorem tree_numbered {P : Common σ → DevBars → List Window → Option (Nat × Nat) → Prop} (b : Phys σ) : ∀ (n last : Nat) {rs : List Region},
    Tree P b.bus rs → Tree P (numbered n last b).bus rs := by
  induction b with
  | nil => intro n last rs h; exact h
  | ep d fn f rest ih =>
    intro n last rs h
    cases h with
    | ep _ _ ws r _ rs h1 h2 h3 => exact .ep _ _ _ _ _ _ h1 h2 (ih _ _ h3)
  | br d fn dsp f child rest ihc ih =>
    intro n last rs h
    cases h with
    | br _ _ ws r _ _ cs rs h1 h2 h3 h4 => exact .br _ _ _ _ _ _ _ _ h1 h2 (ihc _ _ h3) (ih _ _ h4)

theorem clean_numbered (b : Phys σ) : ∀ (n last : Nat), BrsClean b.bus → BrsClean (numbered n last b).bus := by
  induction b with
  | nil => intro n last h; exact h
  | ep d fn f rest ih => intro n last h; exact ih _ _ h
  | br d fn dsp f child rest ihc ih =>
    intro n last h
    obtain ⟨x1, x2, x3⟩ := h
    exact ⟨⟨x1.ioB, x1.ioL, x1.memB, x1.memL, x1.prefB, x1.prefL⟩, ihc _ _ x2, ih _ _ x3⟩

/-- The same bus for a host that does not know it yet. -/
def Bus.forget : Bus σ → Bus σ
  | .nil => .nil
  | .ep f _ rest => .ep f {} rest.forget
  | .br f _ child rest => .br f {} child.forget rest.forget

theorem mapped_forget {sib : Prop} {b : Bus σ} {own all : List Region} {brs : List (Br σ)} (h : Mapped sib b own brs all) :
    Mapped sib b.forget own brs all := by
  induction h with
  | nil => exact .nil
  | ep f d ws r rest own brs all h1 _ h3 ih => exact .ep _ _ _ _ _ _ _ _ h1 ih h3
  | br f d ws r child rest cown cbrs call own brs all h1 _ _ h4 h5 h6 h7 h8 ihc ih =>
    exact .br _ _ _ _ _ _ _ _ _ _ _ _ h1 ihc ih h4 h5 h6 h7 h8

theorem keeps_regs (t : Phys σ) : ∀ {b : Bus σ} {last : Nat}, Keeps t.bus b → Nums last t →
    (t.withRegs b).bus = b.forget ∧ bridges (t.withRegs b) = bridges t ∧ Nums last (t.withRegs b) := by
  induction t with
  | nil => intro b last h hn; cases h; exact ⟨rfl, rfl, trivial⟩
  | ep d fn f rest ih =>
    intro b last h hn
    cases h with
    | ep _ f' _ d' _ rest' h =>
      obtain ⟨i1, i2, i3⟩ := ih h hn
      exact ⟨by rw [Phys.withRegs, Phys.bus, i1, Bus.forget], by rw [Phys.withRegs, bridges, i2, bridges], i3⟩
  | br d fn dsp f child rest ihc ih =>
    intro b last h hn
    cases h with
    | br _ f' _ d' _ child' _ rest' e hc h =>
      obtain ⟨n1, n2, n3, n4⟩ := hn
      obtain ⟨c1, c2, c3⟩ := ihc hc n3
      obtain ⟨i1, i2, i3⟩ := ih h n4
      refine ⟨by rw [Phys.withRegs, Phys.bus, c1, i1, Bus.forget], by rw [Phys.withRegs, bridges, c2, i2, bridges], ?_⟩
      rw [Phys.withRegs, Nums, c2, e.1, e.2]
      exact ⟨n1, n2, c3, i3⟩

theorem apart_has {all : List Region} {l l' : Limits} (q : Seq l all l') (h : l'.mem ≤ l.pref) :
    all.Pairwise fun x y => ∀ io a, Has x io a → ¬ Has y io a := by
  refine List.Pairwise.imp_of_mem (fun {x y} hx hy hxy io a h1 h2 => ?_) q.pairwise
  obtain ⟨a1, a2, a3⟩ := h1
  obtain ⟨b1, b2, b3⟩ := h2
  have w1 := q.within x hx
  have w2 := q.within y hy
  rcases hxy with h | h | h
  · cases hp1 : x.pool <;> cases hp2 : y.pool <;> rw [hp1] at a1 w1 h <;> rw [hp2] at b1 w2 h <;>
      simp only [lim] at w1 w2 <;> cases io <;> simp at a1 b1 h <;> omega
  · omega
  · omega

/-- The same functions at the same places. -/
inductive Skel : Phys σ → Phys σ → Prop
  | nil : Skel .nil .nil
  | ep {d fn f g rest rest'} : Skel rest rest' → Skel (.ep d fn f rest) (.ep d fn g rest')
  | br {d fn dsp f g child child' rest rest'} : Skel child child' → Skel rest rest' →
      Skel (.br d fn dsp f child rest) (.br d fn dsp g child' rest')

theorem Skel.trans {a b : Phys σ} (h : Skel a b) : ∀ {c}, Skel b c → Skel a c := by
  induction h with
  | nil => intro c h; exact h
  | ep _ ih => intro c h; cases h with | ep h => exact .ep (ih h)
  | br _ _ ihc ih => intro c h; cases h with | br h1 h2 => exact .br (ihc h1) (ih h2)

theorem skel_numbered (b : Phys σ) : ∀ (n last : Nat), Skel b (numbered n last b) := by
  induction b with
  | nil => intro n last; exact .nil
  | ep d fn f rest ih => intro n last; exact .ep (ih _ _)
  | br d fn dsp f child rest ihc ih => intro n last; exact .br (ihc _ _) (ih _ _)

theorem skel_regs (t : Phys σ) : ∀ {b : Bus σ}, Keeps t.bus b → Skel t (t.withRegs b) := by
  induction t with
  | nil => intro b h; cases h; exact .nil
  | ep d fn f rest ih => intro b h; cases h with | ep _ f' _ d' _ rest' h => exact .ep (ih h)
  | br d fn dsp f child rest ihc ih =>
    intro b h
    cases h with
    | br _ f' _ d' _ child' _ rest' e hc h => exact .br (ihc hc) (ih h)

theorem enumerate_spec (ops : CapOps σ) {fuel : Nat} {b t : Phys σ} {l : Limits} {rs : List Region}
    (ho : BusOk true false (top b)) (hb : BusesOk b) (hf : NoNumbers b) (hd : depth b < fuel) (ht : Tree Any b.bus rs)
    (hc : BrsClean b.bus) (hs : ∀ x ∈ rs, x.size < 2 ^ 32) (h : enumerate ops fuel b = .ok (t, l))
    (hl : l.mem < 2 ^ 32 ∧ l.pref ≤ 2 ^ 64) :
    ∃ own brs all, Mapped False t.bus own brs all ∧ Sane hostLimits.mem all ∧ (∀ g ∈ brs, Between hostLimits l g) ∧
      Seq hostLimits all l ∧ shape all = shape rs ∧ Nums 0 t ∧ bridges t ≤ 255 ∧ Skel b t := by
  unfold enumerate at h
  by_cases hk : bridges b ≤ 255
  swap
  · have e := scan_err ops fuel [] 0 b false rfl (by simpa using ho) hb hf hd (by omega) (by omega)
    simp only [plug] at e
    obtain ⟨e', he⟩ := e
    rw [scanRoot, he] at h
    cases h
  have h1 := scan_spec ops fuel [] 0 b false rfl (by simpa using ho) hb hf hd (by omega)
  simp only [plug] at h1
  rw [scanRoot, h1] at h
  simp only [ok_bind] at h
  obtain ⟨b1, rs1, e1, t1, s1, hc1, -, -, k1⟩ := readBus_spec ops _ rs (tree_numbered b 0 0 ht)
  rw [e1] at h
  simp only [ok_bind] at h
  cases e2 : assignBus ops b1 hostLimits with
  | error e => rw [e2] at h; cases h
  | ok p =>
    obtain ⟨b2, l2⟩ := p
    rw [e2] at h
    simp only [ok_bind, pure, Except.pure, Except.ok.injEq, Prod.mk.injEq] at h
    obtain ⟨rfl, rfl⟩ := h
    obtain ⟨own, brs, all, m, q, -, hbt, -, hsh, k2⟩ := assignBus_mapped ops False b1 rs1 t1 hostLimits b2 l2 e2 (by decide) hl
      (hc1 (clean_numbered b 0 0 hc)) (fun h => h.elim)
    obtain ⟨r1, r2, r3⟩ := keeps_regs (numbered 0 0 b) (k1.trans k2) (nums_numbered 0 0 b)
    refine ⟨own, brs, all, by rw [r1]; exact mapped_forget m, ⟨?_, ?_, apart_has q ?_⟩, hbt, q, hsh.trans s1, r3, by rw [r2, bridges_numbered]; exact hk,
      (skel_numbered b 0 0).trans (skel_regs _ (k1.trans k2))⟩
    · intro x hx
      have : (x.pool, x.size) ∈ shape rs := by rw [← s1, ← hsh]; exact List.mem_map.2 ⟨x, hx, rfl⟩
      obtain ⟨y, hy, e⟩ := List.mem_map.1 this
      have := hs y hy
      simp only [Prod.mk.injEq] at e
      omega
    · intro x hx hp
      have := (q.within x hx).1
      rw [hp] at this
      exact this
    · have : hostLimits.pref = 2 ^ 63 := by decide
      omega

end Pcie
