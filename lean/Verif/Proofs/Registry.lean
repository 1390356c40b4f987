import Verif.Spec.Registry
import Verif.Proofs.ProgramAll

namespace Verif
open Heap
variable {C : CAS} {h : Heap}

theorem Heap.WF.leafPtNo (w : WF C h) {i p : ℕ} (hp : h.leafPts[i]? = some p) : h.LeafPtNo p i :=
  ⟨by rw [w.ptCounter]; exact (List.getElem?_eq_some_iff.1 hp).1, _, w.leafPt i p hp, rfl, rfl, rfl⟩
theorem Heap.WF.leafExNo (w : WF C h) {i p : ℕ} (hp : h.leafExs[i]? = some p) : h.LeafExNo p i :=
  ⟨by rw [w.exCounter]; exact (List.getElem?_eq_some_iff.1 hp).1, _, w.leafEx i p hp, rfl, rfl, rfl⟩

theorem Heap.WF.leafPts_nodup (w : WF C h) : h.leafPts.Nodup := by
  rw [List.nodup_iff_getElem?_ne_getElem?]
  intro i j hij hj he
  have hi : i < h.leafPts.length := by omega
  have e1 := List.getElem?_eq_getElem hi
  have a := w.leafPt i _ e1
  have b := w.leafPt j _ (he ▸ e1)
  rw [a] at b
  simp at b; omega
theorem Heap.WF.leafExs_nodup (w : WF C h) : h.leafExs.Nodup := by
  rw [List.nodup_iff_getElem?_ne_getElem?]
  intro i j hij hj he
  have hi : i < h.leafExs.length := by omega
  have e1 := List.getElem?_eq_getElem hi
  have a := w.leafEx i _ e1
  have b := w.leafEx j _ (he ▸ e1)
  rw [a] at b
  simp at b; omega

theorem Heap.WF.mem_leafPts (w : WF C h) {p : ℕ} (hp : p ∈ h.leafPts) : ∃ i, h.LeafPtNo p i := by
  obtain ⟨i, hi⟩ := List.mem_iff_getElem?.1 hp
  exact ⟨i, w.leafPtNo hi⟩
theorem Heap.WF.mem_leafExs (w : WF C h) {p : ℕ} (hp : p ∈ h.leafExs) : ∃ i, h.LeafExNo p i := by
  obtain ⟨i, hi⟩ := List.mem_iff_getElem?.1 hp
  exact ⟨i, w.leafExNo hi⟩

theorem Heap.PtLive.indexed (w : WF C h) {p : ℕ} (hp : h.PtLive p) : h.PtIndexed p := by
  obtain ⟨o, ho, -, hk⟩ := hp
  exact ⟨o, ho, fun k hkk => w.mem_leafPts (hk k hkk)⟩
theorem Heap.ExLive.indexed (w : WF C h) {p : ℕ} (hp : h.ExLive p) : h.ExIndexed p := by
  obtain ⟨o, ho, -, hk⟩ := hp
  refine ⟨o, ho, fun k hkk => ?_⟩
  have := hk k hkk
  cases k with
  | fn e => exact w.mem_leafExs this
  | inner p q => exact ⟨w.mem_leafPts this.1, w.mem_leafPts this.2⟩
  | one => trivial

theorem Inv.registryOk {r : Regs} (i : Inv C r h) : RegistryOk r h where
  dimG := i.wf.ptCounter
  dimF := i.wf.exCounter
  ptNo := fun _ _ hp => i.wf.leafPtNo hp
  exNo := fun _ _ hp => i.wf.leafExNo hp
  ptNodup := i.wf.leafPts_nodup
  exNodup := i.wf.leafExs_nodup
  pts := fun p hp => (i.pts p hp).indexed i.wf
  exs := fun p hp => (i.exs p hp).indexed i.wf
  cons := fun p hp => (i.cons p hp).indexed i.wf
  metric := fun p hp => (i.metric p hp).indexed i.wf
  samples := fun f hf => by
    obtain ⟨o, ho, ok⟩ := i.wf.fn f hf
    exact ⟨o, ho, fun t ht => ⟨(ok.points t ht).1.indexed i.wf, (ok.points t ht).2.1.indexed i.wf, (ok.points t ht).2.2.indexed i.wf⟩⟩

theorem reached_inv (hC : C.Lawful) {prog : List Instr} {h0 : Heap} {r : Regs} (hr : runProblem C prog h0 = .ok (r, h)) :
    Inv C r h := (prog_all hC prog (inv_reset h0) hr).inv

theorem runProg_append (p q : List Instr) (r : Regs) (h : Heap) :
    runProg C (p ++ q) r h = (runProg C p r >>= runProg C q) h := by
  induction p generalizing r h with
  | nil => rfl
  | cons a p ih =>
    simp only [List.cons_append, runProg, M.bind_run]
    cases a.run C r h with
    | error e => rfl
    | ok v => exact ih _ _

theorem prog_ok_iff (hC : C.Lawful) (prog : List Instr) {r : Regs} (i : Inv C r h) :
    (∃ v, runProg C prog r h = .ok v) ↔ SafeProg prog r.counts = true := by
  constructor
  · rintro ⟨v, hv⟩
    induction prog generalizing r h with
    | nil => rfl
    | cons a p ih =>
      rw [runProg] at hv
      obtain ⟨r1, h1, e1, hv⟩ := M.bind_ok_iff.1 hv
      have hs := Instr.safe_of_ok e1
      obtain ⟨r1', h1', e1', s1⟩ := step_all hC i a hs
      rw [e1] at e1'; cases e1'
      have := ih s1.inv hv
      rw [s1.counts] at this
      simp [SafeProg, hs, this]
  · intro hs
    obtain ⟨r', h', hh⟩ := prog_safe hC prog i hs
    exact ⟨_, hh⟩

end Verif
