import Verif.Proofs.Repeat

/-!
# Completeness when the equality constraints are redundant

Some circuits add a constraint that every execution satisfies anyway, such as `y1_star + y2_star - y_star` is 0 where `y_star` is the gradient of
`f1 + f2` and `y1_star`, `y2_star` are those of the differentiable functions `f1`, `f2` at the same point.  The equation has no interior, but its multiplier can be 0.
-/

namespace Verif
open Heap
open scoped InnerProductSpace

variable {C : CAS} {h h0 h' : Heap} {r : Regs} {prog : List Instr} {sm : SymMats}

/-- the key belongs to an inequality -/
def SpKey.isIneq : SpKey → Bool
  | .tup 0 _ _ _ => true
  | _ => false

/-- function values and a Gram matrix that satisfy the inequalities come from an execution that satisfies them -/
theorem exists_exec_ineq (hC : C.Lawful) (hr : runProblem C prog h0 = .ok (r, h)) (t : Translates C h r sm h') {V : Set Name} (hc : h'.Clean V)
    (hst : Standard prog = true) (hd : ∀ d ∈ decls prog, d.Ok ∧ d.Default = true) {env : Name → ℝ} {Fv : ℕ → ℝ} {Gm : ℕ → ℕ → ℝ}
    (hG : IsPSD h.ptCounter Gm) (hle : ∀ en ∈ sm.spExp, en.1.isIneq = true → en.2.val env h.exCounter h.ptCounter Fv Gm ≤ 0) :
    ∃ (fs : ℕ → CFun (EuclideanSpace ℝ (Fin h.ptCounter))) (rr : RRegs (EuclideanSpace ℝ (Fin h.ptCounter))), Instance prog fs ∧
      RealExec fs env prog rr ∧ (∀ c ∈ rr.cons, c.2 = .inequality → c.1 ≤ 0) ∧ ∀ m, (SpKey.obj, m) ∈ sm.spExp → rr.metric = some (m.val env h.exCounter h.ptCounter Fv Gm) := by
  have inv := reached_inv hC hr
  have hl := decl_eq_leafFnIds inv
  have w := inv.wf
  obtain ⟨v, hv⟩ := hG.vectors
  let φ : PtId → EuclideanSpace ℝ (Fin h.ptCounter) := fun p => v (h.leafPts.idxOf p)
  let ψ : ExId → ℝ := fun e => Fv (h.leafExs.idxOf e)
  have hx : ∀ i < h.ptCounter, h.leafPts.idxOf (h.leafPts.getD i 0) = i := fun i hi => idx_getD w.leafPts_nodup (by rw [← w.ptCounter]; exact hi)
  have hy : ∀ i < h.exCounter, h.leafExs.idxOf (h.leafExs.getD i 0) = i := fun i hi => idx_getD w.leafExs_nodup (by rw [← w.exCounter]; exact hi)
  have hval : ∀ {e m}, MatOf h' e m → m.val env h.exCounter h.ptCounter Fv Gm = h'.exVal env φ ψ e := by
    intro e m hm
    have := hm.val env φ ψ
    rw [exConst_of_clean hc, add_zero, t.grow.exCounter, t.grow.ptCounter] at this
    rw [← this, FG.val, FG.val]
    congr 1
    · refine Finset.sum_congr rfl fun k hk => ?_
      rw [Heap.fvec, t.grow.leafExs]
      simp only [ψ]
      rw [hy k (Finset.mem_range.1 hk)]
    · refine Finset.sum_congr rfl fun i hi => Finset.sum_congr rfl fun j hj => ?_
      rw [Heap.gram, t.grow.leafPts]
      simp only [φ]
      rw [hx i (Finset.mem_range.1 hi), hx j (Finset.mem_range.1 hj), hv i (Finset.mem_range.1 hi) j (Finset.mem_range.1 hj)]
  have hkey : ∀ key ∈ expectedKeys r.cons ((leafFnIds h).map (nSamples h)), ∃ m, (key, m) ∈ sm.spExp := by
    intro key hk
    rw [← t.keys] at hk
    obtain ⟨⟨k, m⟩, h1, h2⟩ := List.mem_map.1 hk
    subst h2
    exact ⟨m, h1⟩
  have hi : h.Interpolates r env φ ψ := by
    intro f hf o ho s hs u hu
    by_cases hsu : s = u
    · subst hsu; rw [FnClass.lhs_self]
    obtain ⟨k, hk⟩ := List.getElem?_of_mem hf
    obtain ⟨i, hi⟩ := List.getElem?_of_mem hs
    obtain ⟨j, hj⟩ := List.getElem?_of_mem hu
    have hij : i ≠ j := by rintro rfl; rw [hi] at hj; cases hj; exact hsu rfl
    rw [← hl] at hk
    obtain ⟨m, hm⟩ := hkey (.tup 0 (fnShift r.cons + k) i j) (by
      rw [expectedKeys]
      refine List.mem_append_left _ (List.mem_append_left _ (List.mem_append_right _ ?_))
      exact fnKeys_mem (n := o.points.length) (by rw [List.getElem?_map, hk]; simp [nSamples, ho])
        (List.getElem?_eq_some_iff.1 hi).1 (List.getElem?_eq_some_iff.1 hj).1 hij)
    have hle' := hle _ hm rfl
    have ent := t.entries _ hm
    simp only at ent hle'
    generalize hK : SpKey.tup 0 (fnShift r.cons + k) i j = K at ent
    cases ent with
    | @ineq i' e m hi' hm' =>
      exfalso
      have := (List.getElem?_eq_some_iff.1 hi').1
      have h1 : fnShift r.cons = 1 := if_pos (by omega)
      injection hK with _ h2
      omega
    | @pair k' f' i' j' o' ti tj e m hf' ho' hij' hi' hj' hcc he hm' =>
      injection hK with _ h2 h3 h4
      have : k = k' := by omega
      subst this h3 h4
      rw [hk] at hf'
      cases hf'
      obtain ⟨es, -, hes⟩ := t.classCons f (by rw [hl]; exact hf) o ho
      rw [hes] at ho'
      injection ho' with ho'
      subst ho'
      simp only at hi' hj' he
      rw [hi] at hi'
      cases hi'
      rw [hj] at hj'
      cases hj'
      rw [hval hm', he.val] at hle'
      obtain ⟨o1, ho1, hok1⟩ := inv.wf.fn f (by
        rw [← hl] at hf
        exact (List.mem_filter.1 hf).1)
      rw [ho] at ho1
      cases ho1
      have li := hok1.points s hs
      have lj := hok1.points u hu
      rwa [t.grow.ptVal li.1.isPt, t.grow.ptVal li.2.1.isPt, t.grow.exVal li.2.2.isEx, t.grow.ptVal lj.1.isPt, t.grow.ptVal lj.2.1.isPt,
        t.grow.exVal lj.2.2.isEx] at hle'
    | eq hi' hm' => exact absurd hK (by simp)
    | obj he hm' => exact absurd hK (by simp)
  obtain ⟨fs, rr, hf, ex, -, -, hcs, hmet⟩ := C67_realize hC hr hst hd env φ ψ hi
  refine ⟨fs, rr, hf, ex, ?_, ?_⟩
  · intro c hcm hkd
    rw [hcs] at hcm
    obtain ⟨⟨e, k⟩, hek, rfl⟩ := List.mem_map.1 hcm
    have hl1 := (inv.cons _ hek).isEx
    cases k with
    | inequality =>
      show h.exVal env φ ψ e ≤ 0
      have : e ∈ ineqCons r.cons := List.mem_map.2 ⟨(e, .inequality), List.mem_filter.2 ⟨hek, by simp⟩, rfl⟩
      obtain ⟨i, hi⟩ := List.getElem?_of_mem this
      have hlt := (List.getElem?_eq_some_iff.1 hi).1
      obtain ⟨m, hm⟩ := hkey (.tup 0 0 i 0) (by
        rw [expectedKeys]
        refine List.mem_append_left _ (List.mem_append_left _ (List.mem_append_left _ ?_))
        exact List.mem_map.2 ⟨i, List.mem_range.2 hlt, rfl⟩)
      have hle' := hle _ hm rfl
      have ent := t.entries _ hm
      simp only at ent hle'
      generalize hK : SpKey.tup 0 0 i 0 = K at ent
      cases ent with
      | @ineq i' e' m hi' hm' =>
        injection hK with _ _ h3
        subst h3
        rw [hi] at hi'
        cases hi'
        rwa [hval hm', t.grow.exVal hl1] at hle'
      | @pair k' f' i' j' o' ti tj e' m hf' ho' hij' hi' hj' hcc he hm' =>
        exfalso
        have h1 : fnShift r.cons = 1 := if_pos (by omega)
        injection hK with _ h2
        omega
      | eq hi' hm' => exact absurd hK (by simp)
      | obj he hm' => exact absurd hK (by simp)
    | equality => cases hkd
  · intro m hm
    have ent := t.entries _ hm
    simp only at ent
    cases ent with
    | obj he hm' =>
      rw [hmet, he, hval hm', t.grow.exVal (inv.metric _ (by simp [he])).isEx]
      rfl

/-- from the guarantee to multipliers, if the guarantee needs no equality constraint: their multipliers can be 0 -/
theorem certified_of_redundant (hC : C.Lawful) (hr : runProblem C prog h0 = .ok (r, h)) (t : Translates C h r sm h') {V : Set Name}
    (hc : h'.Clean V) (hst : Standard prog = true) (hd : ∀ d ∈ decls prog, d.Ok ∧ d.Default = true) {env : Name → ℝ}
    (hs : ∃ (F0 : ℕ → ℝ) (G0 : ℕ → ℕ → ℝ), IsPSD h.ptCounter G0 ∧ ∀ en ∈ sm.spExp, en.1.isIneq = true → en.2.val env h.exCounter h.ptCounter F0 G0 < 0)
    (hg : ∀ fs : ℕ → CFun (EuclideanSpace ℝ (Fin h.ptCounter)), Instance prog fs → ∀ rr, RealExec fs env prog rr → (∀ c ∈ rr.cons, c.2 = .inequality → c.1 ≤ 0) →
      ∀ v, rr.metric = some v → v ≤ 0) : Certified sm h.ptCounter h.exCounter env := by
  obtain ⟨ents, obj, hsp, -⟩ := t.sum
  have hn : (Dict.keys sm.spExp).Nodup := by rw [t.keys]; exact nodup_expectedKeys _ _
  obtain ⟨hfil, hget⟩ := DualFeasible.split hsp hn
  have hmem : ∀ en ∈ ents, en ∈ sm.spExp ∧ en.1 ≠ .obj := by
    intro en hen
    rw [← hfil, List.mem_filter] at hen
    exact ⟨hen.1, by simpa using hen.2⟩
  have hsymm : ∀ en ∈ sm.spExp, ∀ i j, (en.2.G i j).eval env = (en.2.G j i).eval env := by
    intro en hen
    obtain ⟨x, hm⟩ := (t.entries en hen).matOf
    exact hm.symm env
  obtain ⟨F0, G0, hG0, hs⟩ := hs
  let w : Fin ents.length → ℝ := fun c => if (ents[c]).1.isIneq then 1 else 0
  have hw1 : ∀ c, (ents[c]).1.isIneq = true → w c = 1 := fun c h => if_pos h
  have hw0 : ∀ c, ¬ (ents[c]).1.isIneq = true → w c = 0 := fun c h => if_neg h
  have hval : ∀ c, w c = 1 → ∀ F G, Strong.val h.exCounter h.ptCounter (fun k => w c * ((ents[c]).2.F k).eval env) (fun i j => w c * ((ents[c]).2.G i j).eval env) F G =
      (ents[c]).2.val env h.exCounter h.ptCounter F G := fun c hc F G => by simp only [hc, one_mul]; rfl
  obtain ⟨lam0, h1', h2', h3'⟩ := Strong.strong_duality' (ι := Fin ents.length) (m := h.exCounter) (n := h.ptCounter)
    (fun c k => w c * ((ents[c]).2.F k).eval env) (fun c i j => w c * ((ents[c]).2.G i j).eval env)
    (fun c i _ j _ => congrArg (w c * ·) (hsymm _ (hmem _ (List.getElem_mem _)).1 i j)) (fun k => (obj.F k).eval env) (fun i j => (obj.G i j).eval env)
    (fun i _ j _ => hsymm (.obj, obj) (by rw [hsp]; simp) i j)
    ⟨F0, G0, hG0, fun c => by
      by_cases hk : (ents[c]).1.isIneq = true
      · refine .inr ?_
        rw [hval c (hw1 c hk)]
        exact hs _ (hmem _ (List.getElem_mem c.2)).1 hk
      · exact .inl ⟨fun k _ => by rw [hw0 c hk, zero_mul], fun i _ j _ => by rw [hw0 c hk, zero_mul]⟩⟩
    (by
      intro F G hG hle
      obtain ⟨fs, rr, hf, ex, hch, hmet⟩ := exists_exec_ineq hC hr t hc hst hd (env := env) (Fv := F) hG (by
        intro en hen hk
        have : en ∈ ents := by
          rw [← hfil, List.mem_filter]
          refine ⟨hen, ?_⟩
          obtain ⟨key, m⟩ := en
          cases key with
          | obj => cases hk
          | tup => rfl
        obtain ⟨c, hc', rfl⟩ := List.getElem_of_mem this
        have := hle ⟨c, hc'⟩
        rw [hval ⟨c, hc'⟩ (hw1 ⟨c, hc'⟩ hk)] at this
        exact this)
      exact hg fs hf rr ex hch _ (hmet obj (by rw [hsp]; simp)))
  obtain ⟨lam, hlam⟩ : ∃ lam : Fin ents.length → ℝ, lam = fun c => lam0 c * w c := ⟨_, rfl⟩
  have h1 : ∀ c, 0 ≤ lam c := fun c => by
    rw [hlam]
    refine mul_nonneg (h1' c) ?_
    by_cases hk : (ents[c]).1.isIneq = true
    · rw [hw1 c hk]; exact zero_le_one
    · rw [hw0 c hk]
  have h2 : ∀ k < h.exCounter, ∑ c, lam c * ((ents[c]).2.F k).eval env - (obj.F k).eval env = 0 := fun k hk => by
    rw [← h2' k hk, hlam]
    simp only [mul_assoc]
  have h3 : IsPSD h.ptCounter fun i j => ∑ c, lam c * ((ents[c]).2.G i j).eval env - (obj.G i j).eval env := by
    rw [hlam]
    simp only [mul_assoc]
    exact h3'
  obtain ⟨P, hP1, hP2, hP3⟩ := h3.cholesky
  have hinj : Function.Injective fun c : Fin ents.length => (ents[c]).1 := by
    have : (ents.map Prod.fst).Nodup := by
      rw [hsp, Dict.keys_append] at hn
      exact (List.nodup_append.1 hn).1
    intro a b hab
    have := (this.getElem_inj_iff (hi := by simp) (hj := by simp) (i := a) (j := b)).1 (by simpa using hab)
    exact Fin.ext this
  let mult : SpKey → ℝ := Function.extend (fun c : Fin ents.length => (ents[c]).1) lam 0
  have hmult : ∀ c : Fin ents.length, mult (ents[c]).1 = lam c := fun c => hinj.extend_apply lam 0 c
  have hsum : ∀ g : FG → ℝ, (ents.map fun en => mult en.1 * g en.2).sum = ∑ c : Fin ents.length, lam c * g (ents[c]).2 := by
    intro g
    rw [← Fin.sum_univ_fun_getElem]
    exact Finset.sum_congr rfl fun c _ => by
      show mult (ents[c]).1 * g (ents[c]).2 = _
      rw [hmult c]
  refine ⟨mult, P, hP1, fun i _ => hP2 i, ⟨?_, ?_, ?_⟩⟩
  · intro k i j hk
    rw [hsp, Dict.keys_append, List.mem_append] at hk
    rcases hk with hk | hk
    · obtain ⟨en, hen, he⟩ := List.mem_map.1 hk
      obtain ⟨c, hc, rfl⟩ := List.getElem_of_mem hen
      rw [← he]
      exact (h1 ⟨c, hc⟩).trans_eq (hmult ⟨c, hc⟩).symm
    · simp [Dict.keys] at hk
  · intro k hk
    rw [SymMats.dualF, hfil, SymMats.objF, hget, hsum fun m => (m.F k).eval env]
    exact h2 k hk
  · intro i hi j hj
    rw [SymMats.dualG, hfil, SymMats.objG, hget, hsum fun m => (m.G i j).eval env]
    exact hP3 i hi j hj

section
variable {E : Type} [NormedAddCommGroup E] [InnerProductSpace ℝ E]

/-- an execution with strict functions, whose samples are at different points, in which the inequality constraints are strict -/
theorem ineq_strict_of_nodup (hC : C.Lawful) (hr : runProblem C prog h0 = .ok (r, h)) (t : Translates C h r sm h') {V : Set Name} (hc : h'.Clean V)
    {fs : ℕ → CFun E} (hf : Instance prog fs) (hstrict : ∀ k d, (decls prog)[k]? = some d → (fs k).StrictIn d.cls)
    {env : Name → ℝ} {rr : RRegs E} (ex : RealExec fs env prog rr)
    (hdist : ∀ φ : PtId → E, r.pts.map (h.ptVal env φ) = rr.pts → ∀ (k : ℕ) (f : FnId) (o : FnObj), r.decl[k]? = some f → h.fns[f]? = some o →
      (o.points.map fun t => h.ptVal env φ t.1).Nodup)
    (hcons : ∀ c ∈ rr.cons, c.2 = .inequality → c.1 < 0) :
    ∃ (F0 : ℕ → ℝ) (G0 : ℕ → ℕ → ℝ), IsPSD h.ptCounter G0 ∧ ∀ en ∈ sm.spExp, en.1.isIneq = true → en.2.val env h.exCounter h.ptCounter F0 G0 < 0 := by
  have inv := reached_inv hC hr
  have hl := decl_eq_leafFnIds inv
  obtain ⟨φ, ψ, hp, -, hcs, -, hsm⟩ := C32_represent hC hr fs hf env ex
  have hval : ∀ {e m}, MatOf h' e m → m.val env h.exCounter h.ptCounter (h.fvec ψ) (h.gram φ) = h'.exVal env φ ψ e := by
    intro e m hm
    have := hm.val env φ ψ
    rw [exConst_of_clean hc, add_zero, t.grow.exCounter, t.grow.ptCounter] at this
    rw [← this, FG.val, FG.val]
    congr 1
    · refine Finset.sum_congr rfl fun k _ => ?_
      rw [Heap.fvec, Heap.fvec, t.grow.leafExs]
    · refine Finset.sum_congr rfl fun i _ => Finset.sum_congr rfl fun j _ => ?_
      rw [Heap.gram, Heap.gram, t.grow.leafPts]
  refine ⟨h.fvec ψ, h.gram φ, gram_psd _ fun i => φ (h.leafPts.getD i 0), ?_⟩
  rintro ⟨key, m⟩ hen hne
  have ent := t.entries _ hen
  simp only at ent ⊢
  cases ent with
  | @ineq i e m hi hm =>
    have hmem := List.mem_of_getElem? hi
    obtain ⟨⟨e', kd⟩, h1, rfl⟩ := List.mem_map.1 hmem
    have h2 := (List.mem_filter.1 h1).1
    rw [hval hm, t.grow.exVal (inv.cons _ h2).isEx]
    refine hcons (h.exVal env φ ψ e', kd) ?_ (by simpa using (List.mem_filter.1 h1).2)
    rw [← hcs]
    exact List.mem_map.2 ⟨_, h2, rfl⟩
  | @pair k f i j o ti tj e m hf' ho' hij hi hj hcc he hm =>
    have hfd : f ∈ r.decl := by rw [← hl]; exact List.mem_of_getElem? hf'
    rw [hl] at hf'
    have hlen := (C32_classes hC hr).1
    have hkl := (List.getElem?_eq_some_iff.1 hf').1
    obtain ⟨d, hd⟩ : ∃ d, (decls prog)[k]? = some d := ⟨_, List.getElem?_eq_getElem (by rw [← hlen]; exact hkl)⟩
    obtain ⟨o1, ho1, -, hcls, -⟩ := (C32_classes hC hr).2 k f d hf' hd
    obtain ⟨es, -, hes⟩ := t.classCons f (by rw [hl]; exact hfd) o1 ho1
    rw [hes] at ho'
    injection ho' with ho'
    subst ho'
    simp only at hi hj he
    obtain ⟨o2, ho2, hok⟩ := inv.wf.fn f (by
      rw [← hl] at hfd
      exact (List.mem_filter.1 hfd).1)
    rw [ho1] at ho2
    cases ho2
    have li := hok.points ti (List.mem_of_getElem? hi)
    have lj := hok.points tj (List.mem_of_getElem? hj)
    rw [hval hm, he.val, t.grow.ptVal li.1.isPt, t.grow.ptVal li.2.1.isPt, t.grow.exVal li.2.2.isEx, t.grow.ptVal lj.1.isPt, t.grow.ptVal lj.2.1.isPt,
        t.grow.exVal lj.2.2.isEx, hcls]
    refine hstrict k d hd _ _ _ _ _ _ (hsm k f o1 hf' ho1 ti (List.mem_of_getElem? hi)) (hsm k f o1 hf' ho1 tj (List.mem_of_getElem? hj)) ?_
    intro heq
    have hn := hdist φ hp _ _ _ hf' ho1
    have h1 : (o1.points.map fun t => h.ptVal env φ t.1)[i]? = (o1.points.map fun t => h.ptVal env φ t.1)[j]? := by
      rw [List.getElem?_map, List.getElem?_map, hi, hj]; simp [heq]
    exact hij ((List.getElem?_inj (by rw [List.length_map]; exact (List.getElem?_eq_some_iff.1 hi).1) hn).1 h1)
  | eq => cases hne
  | obj => cases hne

end

/-- every execution satisfies the equality constraints -/
def Redundant (prog : List Instr) (env : Name → ℝ) : Prop :=
  ∀ {E : Type} [NormedAddCommGroup E] [InnerProductSpace ℝ E] (fs : ℕ → CFun E), Instance prog fs → ∀ rr : RRegs E, RealExec fs env prog rr →
    ∀ c ∈ rr.cons, c.2 = .equality → c.1 = 0

/-- as `RepeatRun`, without a condition on equality constraints -/
structure RedundantRun (prog : List Instr) (env : Name → ℝ) (fs : ℕ → CFun ℝ) (V : Vals ℝ) : Prop where
  inst : Instance prog fs
  strict : ∀ k d, (decls prog)[k]? = some d → (fs k).StrictIn d.cls
  meets : MeetsAll (fun k => (fs k).Sample) env V prog ⟨0, 0, 0⟩ 0
  cons : ∀ c ∈ consVals V prog, c.2 = .inequality → c.1 < 0
  dist : ∀ k d, (decls prog)[k]? = some d → ((calls k prog).map V.pt).Nodup ∨
    d.reuse = true ∧ ∀ a ∈ calls k prog, ∀ b ∈ calls k prog, V.pt a = V.pt b → a = b

theorem RedundantRun.exec {env : Name → ℝ} {fs : ℕ → CFun ℝ} {V : Vals ℝ} (s : RedundantRun prog env fs V) (hs : SafeProg prog ⟨0, 0, 0⟩ = true) :
    ∃ rr, RealExec fs env prog rr ∧ Apart prog rr ∧ ∀ c ∈ rr.cons, c.2 = .inequality → c.1 < 0 := by
  obtain ⟨rr, ex, h1, h2⟩ := exec_of_meets_pts (m := none) (cs := []) prog hs s.meets (rr := RRegs.empty ℝ) ⟨rfl, rfl, rfl, rfl, rfl, rfl⟩
  refine ⟨rr, ex, fun k d hk => ?_, by rw [h1]; exact s.cons⟩
  have hlt : ∀ n ∈ calls k prog, n < (countsAfter prog ⟨0, 0, 0⟩).np := calls_lt k prog hs
  have hv : ∀ n ∈ calls k prog, rr.pts.getD n 0 = V.pt n := fun n hn => by rw [h2, getD_range_map _ _ (hlt n hn)]
  refine ⟨fun n hn => by rw [h2]; simpa using hlt n hn, (s.dist k d hk).imp (fun h => ?_) fun h => ⟨h.1, fun a ha b hb e => h.2 a ha b hb ?_⟩⟩
  · rw [List.map_congr_left hv]; exact h
  · rw [← hv a ha, ← hv b hb, e]

/-- completeness from strict executions, if the equality constraints are redundant -/
theorem complete_of_redundant {params : List Name} (hC : C.Lawful) (hs : SafeProg prog ⟨0, 0, 0⟩ = true)
    (hclean : ∀ i ∈ prog, i.Clean {n | n ∈ params}) (hst : Standard prog = true) (hfr : ∀ ins ∈ prog, ins.Fresh = true)
    (hd : ∀ d ∈ decls prog, d.Ok ∧ d.Default = true)
    (s : SimpleParams params) (hmet : ∃ e, Instr.metric e ∈ prog) {Gen : (Name → ℝ) → Prop} (hne : ∃ env, Gen env)
    (hred : ∀ env, Gen env → Redundant prog env)
    (hw' : ∀ env, Gen env → ∃ fs V, RedundantRun prog env fs V) :
    ∃ r h nlp h', runProblem C prog Heap.empty = .ok (r, h) ∧ solveIpopt C r params [] [] h = .ok (nlp, h') ∧
      ∀ env, Gen env → ((∃ σ, nlp.state.Sat σ ∧ ∀ n ∈ scalarNames params, nlp.state.value σ n = env n) ↔
        Guaranteed prog env ∧ InvOk params env ∧ ∀ n ∈ ["eta", "rho", "h"], 0 ≤ env n) := by
  have hw : ∀ env, Gen env → ∃ (fs : ℕ → CFun ℝ) (rr : RRegs ℝ), Instance prog fs ∧ (∀ k d, (decls prog)[k]? = some d → (fs k).StrictIn d.cls) ∧
      RealExec fs env prog rr ∧ Apart prog rr ∧ ∀ c ∈ rr.cons, c.2 = .inequality → c.1 < 0 := by
    intro env hg
    obtain ⟨fs, V, s⟩ := hw' env hg
    obtain ⟨rr, h1, h2, h3⟩ := s.exec hs
    exact ⟨fs, rr, s.inst, s.strict, h1, h2, h3⟩
  obtain ⟨⟨r, h⟩, hr⟩ := (C04_errors hC prog Heap.empty).2 hs
  have hok : ∀ d ∈ decls prog, d.Ok := fun d hm => (hd d hm).1
  obtain ⟨env0, h0⟩ := hne
  obtain ⟨fs0, rr0, hf0, -, ex0, hdist0, -⟩ := hw env0 h0
  obtain ⟨nlp, h', hn⟩ := (C63_ipopt (bounds := []) (init := []) hC hr hclean s hok (by simp) (by simp)).2
    ⟨hmet, fun f hfm o ho => by
      obtain ⟨k, hk⟩ := List.getElem?_of_mem hfm
      obtain ⟨φ, ψ, hp, -⟩ := C32_represent hC hr fs0 hf0 env0 ex0
      exact (samples_apart hC hr hst hfr hdist0 hp hk ho).of_map⟩
  obtain ⟨sm0, hm0, -⟩ := solveIpopt_inv hn
  obtain ⟨sm, hm, hiff⟩ := C26_iff hC hr hclean s (by simp) (solvable_of_ok hC hr hok hm0) hn
  refine ⟨r, h, nlp, h', hr, hn, fun env hg => ?_⟩
  obtain ⟨fs, rr, hf, hstr, ex, hdist, hcons⟩ := hw env hg
  have t := translate_of hC hr (solvable_of_ok hC hr hok hm) hm
  have hcl := qcqp_clean hC hr hclean hm
  have hdual : Guaranteed prog env ↔ Certified sm h.ptCounter h.exCounter env := by
    constructor
    · intro hgu
      refine certified_of_redundant hC hr t hcl hst hd (ineq_strict_of_nodup hC hr t hcl hf hstr ex
        (fun _ hp _ _ _ hk ho => samples_apart hC hr hst hfr hdist hp hk ho) hcons) fun fs hf rr ex hch v hv => hgu fs hf rr ex (fun c hc => ?_) v hv
      obtain ⟨x, kd⟩ := c
      cases kd with
      | inequality => exact hch _ hc rfl
      | equality => exact hred env hg fs hf rr ex _ hc rfl
    · rintro ⟨mult, P, -, -, d⟩ E _ _ fs hf rr ex hch v hv
      exact weak_duality hC hr t hcl hok d (IsPSD.ppt _ _) hf ex hch hv
  rw [hiff env, ← hdual]
  simp [BoundsOk]

end Verif
