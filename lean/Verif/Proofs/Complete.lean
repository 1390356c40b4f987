import Verif.Proofs.Strong
import Verif.Proofs.CertCheck
import Verif.Props.Realize
import Verif.Spec.Strict
import Mathlib.Analysis.InnerProductSpace.PiL2

/-!
# From a guarantee to multipliers
-/

namespace Verif
open Heap
open scoped InnerProductSpace

variable {C : CAS} {h h0 h' : Heap} {r : Regs} {prog : List Instr} {sm : SymMats}

theorem fnKeys_mem {ns : List ℕ} : ∀ {s k n i j : ℕ}, ns[k]? = some n → i < n → j < n → i ≠ j → SpKey.tup 0 (s + k) i j ∈ fnKeys ns s := by
  induction ns with
  | nil => intro s k n i j hk; simp at hk
  | cons a ns ih =>
    intro s k n i j hk hi hj hne
    rw [fnKeys, List.mem_append]
    cases k with
    | zero =>
      simp only [List.getElem?_cons_zero, Option.some.injEq] at hk
      subst hk
      exact .inl (List.mem_map.2 ⟨(i, j), mem_offDiag.2 ⟨hi, hj, hne⟩, rfl⟩)
    | succ k =>
      rw [List.getElem?_cons_succ] at hk
      have := ih (s := s + 1) hk hi hj hne
      rw [show s + 1 + k = s + (k + 1) by omega] at this
      exact .inr this

theorem FnClass.lhs_self {E : Type} [NormedAddCommGroup E] [InnerProductSpace ℝ E] (cls : FnClass) (x g : E) (v : ℝ) : cls.lhs x g v x g v = 0 := by
  cases cls <;> simp [FnClass.lhs]

/-- vectors with a given Gram matrix -/
theorem IsPSD.vectors {n : ℕ} {G : ℕ → ℕ → ℝ} (hG : IsPSD n G) : ∃ v : ℕ → EuclideanSpace ℝ (Fin n), ∀ i < n, ∀ j < n, ⟪v i, v j⟫_ℝ = G i j := by
  obtain ⟨L, -, -, hL⟩ := hG.cholesky
  refine ⟨fun i => WithLp.toLp 2 fun k => L i k, fun i hi j hj => ?_⟩
  rw [hL i hi j hj, ← Fin.sum_univ_eq_sum_range (fun k => L i k * L j k)]
  simp [PiLp.inner_apply, mul_comm]

/-- function values and a Gram matrix that satisfy all constraints come from an execution -/
theorem exists_exec (hC : C.Lawful) (hr : runProblem C prog h0 = .ok (r, h)) (t : Translates C h r sm h') {V : Set Name} (hc : h'.Clean V)
    (hst : Standard prog = true) (hd : ∀ d ∈ decls prog, d.Ok ∧ d.Default = true) {env : Name → ℝ} {Fv : ℕ → ℝ} {Gm : ℕ → ℕ → ℝ}
    (hG : IsPSD h.ptCounter Gm) (hle : ∀ en ∈ sm.spExp, en.1 ≠ .obj → en.2.val env h.exCounter h.ptCounter Fv Gm ≤ 0)
    (heq : ∀ en ∈ sm.spExp, (∃ i, en.1 = .tup 1 0 i 0) → en.2.val env h.exCounter h.ptCounter Fv Gm = 0) :
    ∃ (fs : ℕ → CFun (EuclideanSpace ℝ (Fin h.ptCounter))) (rr : RRegs (EuclideanSpace ℝ (Fin h.ptCounter))), Instance prog fs ∧
      RealExec fs env prog rr ∧ rr.ConsHold ∧ ∀ m, (SpKey.obj, m) ∈ sm.spExp → rr.metric = some (m.val env h.exCounter h.ptCounter Fv Gm) := by
  have inv := reached_inv hC hr
  have hl := decl_eq_leafFnIds inv
  have w := inv.wf
  obtain ⟨v, hv⟩ := hG.vectors
  let φ : PtId → EuclideanSpace ℝ (Fin h.ptCounter) := fun p => v (h.leafPts.idxOf p)
  let ψ : ExId → ℝ := fun e => Fv (h.leafExs.idxOf e)
  have hx : ∀ i < h.ptCounter, h.leafPts.idxOf (h.leafPts.getD i 0) = i := fun i hi => idx_getD w.leafPts_nodup (by rw [← w.ptCounter]; exact hi)
  have hy : ∀ i < h.exCounter, h.leafExs.idxOf (h.leafExs.getD i 0) = i := fun i hi => idx_getD w.leafExs_nodup (by rw [← w.exCounter]; exact hi)
  have hval : ∀ {e m}, MatOf h' e m → m.val env h.exCounter h.ptCounter Fv Gm = h'.exVal env φ ψ e := by
    intro e m hm
    have := hm.val env φ ψ
    rw [exConst_of_clean hc, add_zero, t.grow.exCounter, t.grow.ptCounter] at this
    rw [← this, FG.val, FG.val]
    congr 1
    · refine Finset.sum_congr rfl fun k hk => ?_
      rw [Heap.fvec, t.grow.leafExs]
      simp only [ψ]
      rw [hy k (Finset.mem_range.1 hk)]
    · refine Finset.sum_congr rfl fun i hi => Finset.sum_congr rfl fun j hj => ?_
      rw [Heap.gram, t.grow.leafPts]
      simp only [φ]
      rw [hx i (Finset.mem_range.1 hi), hx j (Finset.mem_range.1 hj), hv i (Finset.mem_range.1 hi) j (Finset.mem_range.1 hj)]
  have hkey : ∀ key ∈ expectedKeys r.cons ((leafFnIds h).map (nSamples h)), ∃ m, (key, m) ∈ sm.spExp := by
    intro key hk
    rw [← t.keys] at hk
    obtain ⟨⟨k, m⟩, h1, h2⟩ := List.mem_map.1 hk
    subst h2
    exact ⟨m, h1⟩
  have hi : h.Interpolates r env φ ψ := by
    intro f hf o ho s hs u hu
    by_cases hsu : s = u
    · subst hsu; rw [FnClass.lhs_self]
    obtain ⟨k, hk⟩ := List.getElem?_of_mem hf
    obtain ⟨i, hi⟩ := List.getElem?_of_mem hs
    obtain ⟨j, hj⟩ := List.getElem?_of_mem hu
    have hij : i ≠ j := by rintro rfl; rw [hi] at hj; cases hj; exact hsu rfl
    rw [← hl] at hk
    obtain ⟨m, hm⟩ := hkey (.tup 0 (fnShift r.cons + k) i j) (by
      rw [expectedKeys]
      refine List.mem_append_left _ (List.mem_append_left _ (List.mem_append_right _ ?_))
      exact fnKeys_mem (n := o.points.length) (by rw [List.getElem?_map, hk]; simp [nSamples, ho])
        (List.getElem?_eq_some_iff.1 hi).1 (List.getElem?_eq_some_iff.1 hj).1 hij)
    have hle' := hle _ hm (by simp)
    have ent := t.entries _ hm
    simp only at ent hle'
    generalize hK : SpKey.tup 0 (fnShift r.cons + k) i j = K at ent
    cases ent with
    | @ineq i' e m hi' hm' =>
      exfalso
      have := (List.getElem?_eq_some_iff.1 hi').1
      have h1 : fnShift r.cons = 1 := if_pos (by omega)
      injection hK with _ h2
      omega
    | @pair k' f' i' j' o' ti tj e m hf' ho' hij' hi' hj' hcc he hm' =>
      injection hK with _ h2 h3 h4
      have : k = k' := by omega
      subst this h3 h4
      rw [hk] at hf'
      cases hf'
      obtain ⟨es, -, hes⟩ := t.classCons f (by rw [hl]; exact hf) o ho
      rw [hes] at ho'
      injection ho' with ho'
      subst ho'
      simp only at hi' hj' he
      rw [hi] at hi'
      cases hi'
      rw [hj] at hj'
      cases hj'
      rw [hval hm', he.val] at hle'
      obtain ⟨o1, ho1, hok1⟩ := inv.wf.fn f (by
        rw [← hl] at hf
        exact (List.mem_filter.1 hf).1)
      rw [ho] at ho1
      cases ho1
      have li := hok1.points s hs
      have lj := hok1.points u hu
      rwa [t.grow.ptVal li.1.isPt, t.grow.ptVal li.2.1.isPt, t.grow.exVal li.2.2.isEx, t.grow.ptVal lj.1.isPt, t.grow.ptVal lj.2.1.isPt,
        t.grow.exVal lj.2.2.isEx] at hle'
    | eq hi' hm' => exact absurd hK (by simp)
    | obj he hm' => exact absurd hK (by simp)
  obtain ⟨fs, rr, hf, ex, -, -, hcs, hmet⟩ := C67_realize hC hr hst hd env φ ψ hi
  refine ⟨fs, rr, hf, ex, ?_, ?_⟩
  · intro c hcm
    rw [hcs] at hcm
    obtain ⟨⟨e, k⟩, hek, rfl⟩ := List.mem_map.1 hcm
    have hl1 := (inv.cons _ hek).isEx
    cases k with
    | inequality =>
      show h.exVal env φ ψ e ≤ 0
      have : e ∈ ineqCons r.cons := List.mem_map.2 ⟨(e, .inequality), List.mem_filter.2 ⟨hek, by simp⟩, rfl⟩
      obtain ⟨i, hi⟩ := List.getElem?_of_mem this
      have hlt := (List.getElem?_eq_some_iff.1 hi).1
      obtain ⟨m, hm⟩ := hkey (.tup 0 0 i 0) (by
        rw [expectedKeys]
        refine List.mem_append_left _ (List.mem_append_left _ (List.mem_append_left _ ?_))
        exact List.mem_map.2 ⟨i, List.mem_range.2 hlt, rfl⟩)
      have hle' := hle _ hm (by simp)
      have ent := t.entries _ hm
      simp only at ent hle'
      generalize hK : SpKey.tup 0 0 i 0 = K at ent
      cases ent with
      | @ineq i' e' m hi' hm' =>
        injection hK with _ _ h3
        subst h3
        rw [hi] at hi'
        cases hi'
        rwa [hval hm', t.grow.exVal hl1] at hle'
      | @pair k' f' i' j' o' ti tj e' m hf' ho' hij' hi' hj' hcc he hm' =>
        exfalso
        have h1 : fnShift r.cons = 1 := if_pos (by omega)
        injection hK with _ h2
        omega
      | eq hi' hm' => exact absurd hK (by simp)
      | obj he hm' => exact absurd hK (by simp)
    | equality =>
      show h.exVal env φ ψ e = 0
      have : e ∈ eqCons r.cons := List.mem_map.2 ⟨(e, .equality), List.mem_filter.2 ⟨hek, by simp⟩, rfl⟩
      obtain ⟨i, hi⟩ := List.getElem?_of_mem this
      have hlt := (List.getElem?_eq_some_iff.1 hi).1
      obtain ⟨m, hm⟩ := hkey (.tup 1 0 i 0) (by
        rw [expectedKeys]
        refine List.mem_append_left _ (List.mem_append_right _ ?_)
        exact List.mem_map.2 ⟨i, List.mem_range.2 hlt, rfl⟩)
      have heq' := heq _ hm ⟨i, rfl⟩
      have ent := t.entries _ hm
      simp only at ent heq'
      generalize hK : SpKey.tup 1 0 i 0 = K at ent
      cases ent with
      | ineq hi' hm' => exact absurd hK (by simp)
      | pair hf' ho' hij' hi' hj' hcc he hm' => exact absurd hK (by simp)
      | @eq i' e' m hi' hm' =>
        injection hK with _ _ h3
        subst h3
        rw [hi] at hi'
        cases hi'
        rwa [hval hm', t.grow.exVal hl1] at heq'
      | obj he hm' => exact absurd hK (by simp)
  · intro m hm
    have ent := t.entries _ hm
    simp only at ent
    cases ent with
    | obj he hm' =>
      rw [hmet, he, hval hm', t.grow.exVal (inv.metric _ (by simp [he])).isEx]
      rfl

/-- from the guarantee to multipliers -/
theorem certified_of_guaranteed (hC : C.Lawful) (hr : runProblem C prog h0 = .ok (r, h)) (t : Translates C h r sm h') {V : Set Name}
    (hc : h'.Clean V) (hst : Standard prog = true) (hd : ∀ d ∈ decls prog, d.Ok ∧ d.Default = true) {env : Name → ℝ}
    (hs : StrictlyFeasible sm h.ptCounter h.exCounter env)
    (hg : ∀ fs : ℕ → CFun (EuclideanSpace ℝ (Fin h.ptCounter)), Instance prog fs → ∀ rr, RealExec fs env prog rr → rr.ConsHold →
      ∀ v, rr.metric = some v → v ≤ 0) : Certified sm h.ptCounter h.exCounter env := by
  obtain ⟨ents, obj, hsp, -⟩ := t.sum
  have hn : (Dict.keys sm.spExp).Nodup := by rw [t.keys]; exact nodup_expectedKeys _ _
  obtain ⟨hfil, hget⟩ := DualFeasible.split hsp hn
  have hmem : ∀ en ∈ ents, en ∈ sm.spExp ∧ en.1 ≠ .obj := by
    intro en hen
    rw [← hfil, List.mem_filter] at hen
    exact ⟨hen.1, by simpa using hen.2⟩
  have hsymm : ∀ en ∈ sm.spExp, ∀ i j, (en.2.G i j).eval env = (en.2.G j i).eval env := by
    intro en hen
    obtain ⟨x, hm⟩ := (t.entries en hen).matOf
    exact hm.symm env
  obtain ⟨F0, G0, hG0, hs⟩ := hs
  obtain ⟨lam, h1, h2, h3⟩ := Strong.strong_duality' (ι := Fin ents.length) (m := h.exCounter) (n := h.ptCounter)
    (fun c k => ((ents[c]).2.F k).eval env) (fun c i j => ((ents[c]).2.G i j).eval env)
    (fun c i _ j _ => hsymm _ (hmem _ (List.getElem_mem _)).1 i j) (fun k => (obj.F k).eval env) (fun i j => (obj.G i j).eval env)
    (fun i _ j _ => hsymm (.obj, obj) (by rw [hsp]; simp) i j)
    ⟨F0, G0, hG0, fun c => by
      obtain ⟨h1, h2⟩ := hmem _ (List.getElem_mem c.2)
      rcases hs _ h1 h2 with h | h
      · exact .inl h
      · exact .inr h.2⟩
    (by
      intro F G hG hle
      have hle' : ∀ en ∈ ents, en.2.val env h.exCounter h.ptCounter F G ≤ 0 := by
        intro en hen
        obtain ⟨c, hc, rfl⟩ := List.getElem_of_mem hen
        exact hle ⟨c, hc⟩
      have hents : ∀ en ∈ sm.spExp, en.1 ≠ .obj → en ∈ ents := by
        intro en hen hne
        rw [← hfil, List.mem_filter]
        exact ⟨hen, by simpa using hne⟩
      obtain ⟨fs, rr, hf, ex, hch, hmet⟩ := exists_exec hC hr t hc hst hd hG (fun en hen hne => hle' en (hents en hen hne)) (by
        rintro en hen ⟨i, hi⟩
        rcases hs en hen (by simp [hi]) with h | h
        · rw [FG.val, Finset.sum_eq_zero fun k hk => by rw [h.1 k (Finset.mem_range.1 hk), zero_mul],
            Finset.sum_eq_zero fun i hi => Finset.sum_eq_zero fun j hj => by rw [h.2 i (Finset.mem_range.1 hi) j (Finset.mem_range.1 hj), zero_mul],
            add_zero]
        · obtain ⟨⟨k, i', j', hk⟩, -⟩ := h
          rw [hi] at hk
          cases hk)
      exact hg fs hf rr ex hch _ (hmet obj (by rw [hsp]; simp)))
  obtain ⟨P, hP1, hP2, hP3⟩ := h3.cholesky
  have hinj : Function.Injective fun c : Fin ents.length => (ents[c]).1 := by
    have : (ents.map Prod.fst).Nodup := by
      rw [hsp, Dict.keys_append] at hn
      exact (List.nodup_append.1 hn).1
    intro a b hab
    have := (this.getElem_inj_iff (hi := by simp) (hj := by simp) (i := a) (j := b)).1 (by simpa using hab)
    exact Fin.ext this
  let mult : SpKey → ℝ := Function.extend (fun c : Fin ents.length => (ents[c]).1) lam 0
  have hmult : ∀ c : Fin ents.length, mult (ents[c]).1 = lam c := fun c => hinj.extend_apply lam 0 c
  have hsum : ∀ g : FG → ℝ, (ents.map fun en => mult en.1 * g en.2).sum = ∑ c : Fin ents.length, lam c * g (ents[c]).2 := by
    intro g
    rw [← Fin.sum_univ_fun_getElem]
    exact Finset.sum_congr rfl fun c _ => by
      show mult (ents[c]).1 * g (ents[c]).2 = _
      rw [hmult c]
  refine ⟨mult, P, hP1, fun i _ => hP2 i, ⟨?_, ?_, ?_⟩⟩
  · intro k i j hk
    rw [hsp, Dict.keys_append, List.mem_append] at hk
    rcases hk with hk | hk
    · obtain ⟨en, hen, he⟩ := List.mem_map.1 hk
      obtain ⟨c, hc, rfl⟩ := List.getElem_of_mem hen
      rw [← he]
      exact (h1 ⟨c, hc⟩).trans_eq (hmult ⟨c, hc⟩).symm
    · simp [Dict.keys] at hk
  · intro k hk
    rw [SymMats.dualF, hfil, SymMats.objF, hget, hsum fun m => (m.F k).eval env]
    exact h2 k hk
  · intro i hi j hj
    rw [SymMats.dualG, hfil, SymMats.objG, hget, hsum fun m => (m.G i j).eval env]
    exact hP3 i hi j hj

end Verif
