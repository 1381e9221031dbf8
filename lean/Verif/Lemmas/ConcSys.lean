import Verif.Spec.ConcSys
import Verif.Props.Conc
import Verif.Lemmas.EndToEnd
namespace Pcie
open Spec
namespace Sys

variable {σ : Type}

theorem readOk_type {k : Nat} {t : Tlp} (h : ReadOk k t) : t.fmtType = some (if ¬ t.address < 2 ^ 32 then .MEM_READ_64 else .MEM_READ) := by
  rw [h.type]; by_cases hb : t.address < 2 ^ 32
  · rw [if_pos hb, if_neg (fun h => h hb)]
  · rw [if_neg hb, if_pos hb]

theorem writeOk_type {k : Nat} {t : Tlp} (h : WriteOk k t) : t.fmtType = some (if ¬ t.address < 2 ^ 32 then .MEM_WRITE_64 else .MEM_WRITE) := by
  rw [h.type]; by_cases hb : t.address < 2 ^ 32
  · rw [if_pos hb, if_neg (fun h => h hb)]
  · rw [if_neg hb, if_pos hb]

section
variable {n : Node σ} {a : Agent} {id : PcieId} {q : List Nat} {k : Nat} {g : EpFn σ} (C : Carries n a id q k g) {w : Window}
  (hal : w.base % 2 ^ w.k = 0) (hk2 : 2 ≤ w.k) (hh : MemHandlers g.handlers)
  (hw : ∀ x, w.contains x = true → matchBar g.bars x = .ok (some (w.idx, x - w.base)) ∧ EpFn.For g (.mem x) ∧ Sound (.mem x))
include C hal hk2 hh hw

theorem read_fn {s : Sys σ} {size : Nat} (hg : HasRegion n q k w size s) {t : Tlp} {j first m : Nat} (hr : ReadOk j t) (hb : ReadsBytes t first m) (h1 : w.base ≤ t.address)
    (h2 : t.address + 4 * t.length ≤ w.base + size) (hf : From id t) :
    ∃ cpls rcb mps, s.request a t = .ok (s, cpls) ∧ LegalCpls (sysView q k w.idx w.base s) rcb mps first m cpls := by
  obtain ⟨rfl, b, hb', rfl⟩ := hg
  have hcl : ClaimsMem g.bars w.idx w.base w.k := fun x h1 h2 => (hw x (by simp [Window.contains, h1, h2])).1
  have hp := hr.length_pos
  have hsz := hb'.size
  obtain ⟨cpls, rcb, mps, e1, e2⟩ := (C78_endpoint_memory id w.idx w.base w.k b.size hk2 hal hb'.size).read (s.ep q k g) t j first m ⟨hcl, b, hb'.buf, rfl⟩ hr hb h1 h2 hf
  obtain ⟨m1, m2, m3⟩ := hw t.address (by simp [Window.contains]; omega)
  have e3 : (s.ep q k g).handleMemRead t = .ok cpls := e1
  have e4 := ep_memRead (s.ep q k g) t w.idx w.base b m1 hb'.buf h1 h2 (off_4k w.base w.k _ _ hal h1 (by omega) hr.boundary)
  have e5 : cpls = memReadCpls (s.ep q k g).cplCfg t ((busView b w.base).read t.address (4 * t.length)) := by
    rw [e3] at e4; injection e4
  refine ⟨cpls, rcb, mps, ?_, e2⟩
  refine request_fn C (ty := if ¬ t.address < 2 ^ 32 then .MEM_READ_64 else .MEM_READ) (tg := .mem t.address) (readOk_type hr) ?_ mem_completion.1 hr.check hf.2.1 m3 m2 ?_ hf.1 hf.2.2 ?_
    (e5 ▸ memReadCpls_good _ t (busView b w.base) hr.aligned hr.length_pos)
  · split <;> simp [target]
  · split <;> exact hh _ (by simp)
  · rw [fnGets_memRead (readOk_type hr), e3]; rfl

theorem write_fn {s : Sys σ} {size : Nat} (hg : HasRegion n q k w size s) {t : Tlp} {j : Nat} (hr : WriteOk j t) (h1 : w.base ≤ t.address)
    (h2 : t.address + 4 * t.length ≤ w.base + size) (hf : From id t) :
    ∃ s', s.request a t = .ok (s', []) ∧ HasRegion n q k w size s' ∧ EnabledStored (sysView q k w.idx w.base s) (sysView q k w.idx w.base s') t t.address := by
  obtain ⟨rfl, b, hb', rfl⟩ := hg
  have hcl : ClaimsMem g.bars w.idx w.base w.k := fun x h1 h2 => (hw x (by simp [Window.contains, h1, h2])).1
  have hp := hr.length_pos
  have hsz := hb'.size
  obtain ⟨e', e1, ⟨-, b', e2, e3⟩, e4⟩ := (C78_endpoint_memory id w.idx w.base w.k b.size hk2 hal hb'.size).write (s.ep q k g) t j ⟨hcl, b, hb'.buf, rfl⟩ hr h1 h2 hf
  obtain ⟨m1, m2, m3⟩ := hw t.address (by simp [Window.contains]; omega)
  have e5 : (s.ep q k g).handleMemWrite t = .ok e' := e1
  have e6 : (s.put q k e'.regions).regions q k = e'.regions := by simp [put]
  refine ⟨s.put q k e'.regions, ?_, ⟨rfl, b', ⟨by rw [e6]; exact e2, by omega⟩, e3⟩, ?_⟩
  · refine request_fn C (ty := if ¬ t.address < 2 ^ 32 then .MEM_WRITE_64 else .MEM_WRITE) (tg := .mem t.address) (writeOk_type hr) ?_ mem_completion.2 hr.check hf.2.1 m3 m2 ?_ hf.1 hf.2.2 ?_
      (fun c hc => by cases hc)
    · split <;> simp [target]
    · split <;> exact hh _ (by simp)
    · rw [fnGets_memWrite (writeOk_type hr), e5]; rfl
  · have : sysView q k w.idx w.base (s.put q k e'.regions) = epView w.idx w.base e' := by unfold sysView epView; rw [e6]; rfl
    rw [this]; exact e4

theorem serves_fn (size : Nat) : ServesMem (Completer.sys a) (sysView q k w.idx w.base) (HasRegion n q k w size) id w.base (w.base + size) where
  read := by
    intro s t j first m hg hr hb h1 h2 hf
    obtain ⟨cpls, rcb, mps, e1, e2⟩ := read_fn C hal hk2 hh hw hg hr hb h1 h2 hf
    exact ⟨cpls, rcb, mps, by unfold Completer.sys; simp only [e1]; rfl, e2⟩
  write := by
    intro s t j hg hr h1 h2 hf
    obtain ⟨s', e1, e2⟩ := write_fn C hal hk2 hh hw hg hr h1 h2 hf
    exact ⟨s', by unfold Completer.sys; simp only [e1]; rfl, e2⟩

end

section
variable {n : Node σ} {l : Limits} {id : PcieId} {q : List Nat} {k : Nat} (C : CarriesUp n l q k id) {lo hi : Nat}
  (hr : ∀ x, lo ≤ x → x < hi → Sound (.mem x) ∧ ForRoot l (.mem x))
include C hr

theorem read_root {s : Sys σ} (hg : HasHost n lo hi s) {t : Tlp} {j first m : Nat} (ht : ReadOk j t) (hb : ReadsBytes t first m) (h1 : lo ≤ t.address)
    (h2 : t.address + 4 * t.length ≤ hi) (hf : From id t) :
    ∃ cpls rcb mps, s.request (.fn q k) t = .ok (s, cpls) ∧ LegalCpls s.mem.mem rcb mps first m cpls := by
  obtain ⟨rfl, hg⟩ := hg
  have hp := ht.length_pos
  obtain ⟨cpls, rcb, mps, e1, e2⟩ := (C78_host_memory s.cfg id lo hi).read s.mem t j first m hg ht hb h1 h2 hf
  obtain ⟨m1, m2⟩ := hr t.address h1 (by omega)
  have e3 : Rc.handleMemRead s.cfg s.mem t = cpls := by injection e1
  obtain ⟨c1, c2, -⟩ := hg t.address (t.length * 4) h1 (by omega)
  have e4 := rc_memRead s.cfg s.mem t ht.boundary c1 c2
  refine ⟨cpls, rcb, mps, ?_, e2⟩
  refine request_root C (ty := if ¬ t.address < 2 ^ 32 then .MEM_READ_64 else .MEM_READ) (tg := .mem t.address) (readOk_type ht) ?_ ht.check hf.2.1 m1 m2 hf.1 hf.2.2
    (by rw [rootGets_memRead (readOk_type ht), e3]) ?_
  · split <;> simp [target]
  · rw [← e3, e4]
    exact memReadCpls_good s.cfg t s.mem.mem ht.aligned ht.length_pos

theorem write_root {s : Sys σ} (hg : HasHost n lo hi s) {t : Tlp} {j : Nat} (ht : WriteOk j t) (h1 : lo ≤ t.address)
    (h2 : t.address + 4 * t.length ≤ hi) (hf : From id t) :
    ∃ s', s.request (.fn q k) t = .ok (s', []) ∧ HasHost n lo hi s' ∧ EnabledStored s.mem.mem s'.mem.mem t t.address := by
  obtain ⟨rfl, hg⟩ := hg
  have hp := ht.length_pos
  obtain ⟨m', e1, e2, e3⟩ := (C78_host_memory s.cfg id lo hi).write s.mem t j hg ht h1 h2 hf
  obtain ⟨m1, m2⟩ := hr t.address h1 (by omega)
  have e4 : Rc.handleMemWrite s.mem t = m' := by injection e1
  refine ⟨{ s with mem := m' }, ?_, ⟨rfl, e2⟩, e3⟩
  refine request_root C (ty := if ¬ t.address < 2 ^ 32 then .MEM_WRITE_64 else .MEM_WRITE) (tg := .mem t.address) (writeOk_type ht) ?_ ht.check hf.2.1 m1 m2 hf.1 hf.2.2
    (by rw [rootGets_memWrite (writeOk_type ht), e4]) (fun c hc => by cases hc)
  split <;> simp [target]

theorem serves_root : ServesMem (Completer.sys (.fn q k)) (fun s : Sys σ => s.mem.mem) (HasHost n lo hi) id lo hi where
  read := by
    intro s t j first m hg ht hb h1 h2 hf
    obtain ⟨cpls, rcb, mps, e1, e2⟩ := read_root C hr hg ht hb h1 h2 hf
    exact ⟨cpls, rcb, mps, by unfold Completer.sys; simp only [e1]; rfl, e2⟩
  write := by
    intro s t j hg ht h1 h2 hf
    obtain ⟨s', e1, e2⟩ := write_root C hr hg ht h1 h2 hf
    exact ⟨s', by unfold Completer.sys; simp only [e1]; rfl, e2⟩

end
end Sys
end Pcie
