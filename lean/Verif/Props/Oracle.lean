import Verif.Proofs.OracleApi
import Verif.Proofs.RefCAS
import Verif.Spec.Reach

/-!
# C05-C09: oracle calls, stationary points, implicit steps
-/

namespace Verif
open Heap

variable {C : CAS} {h h1 h2 : Heap} {r r2 : Regs} {f x g : ℕ} {v : ExId} {o : FnObj}

theorem Reached.inv (hC : C.Lawful) (hR : Reached C r h) : Inv C r h := by
  obtain ⟨prog, h0, hr⟩ := hR; exact reached_inv hC hr
theorem Later.res (hC : C.Lawful) (i : Inv C r h) {r' h'} (l : Later C r h r' h') : Ext C h h' ∧ Inv C r' h' := by
  obtain ⟨prog, hr⟩ := l
  exact ⟨(prog_all hC prog i hr).ext, (prog_all hC prog i hr).inv⟩
theorem inv_push (hC : C.Lawful) (i : Inv C r h) (hf : f ∈ r.fns) (hx : x ∈ r.pts) (ho : oracle C f x h = .ok ((g, v), h1)) :
    Inv C (r.push g v) h1 := by
  obtain ⟨a, ha⟩ := List.getElem?_of_mem hf
  obtain ⟨b, hb⟩ := List.getElem?_of_mem hx
  have hrun : runProg C [.oracle a b] r h = .ok (r.push g v, h1) := by
    have e1 : regGet r.fns a h = .ok (f, h) := by simp [regGet, ha, M.ofOption]
    have e2 : regGet r.pts b h = .ok (x, h) := by simp [regGet, hb, M.ofOption]
    rw [runProg, Instr.run]
    refine M.bind_ok_iff.2 ⟨r.push g v, h1, ?_, rfl⟩
    rw [M.bind_of_ok e1, M.bind_of_ok e2, M.bind_of_ok ho]; rfl
  exact (prog_all hC _ i hrun).inv

/-! ## C05 -/

/-- A function with gradient reuse (a declared one with finite `L`, or a sum of such) returns the same objects again and creates
nothing, whatever calls happen in between.  `Pruned C h x`: no coefficient of `x` is equal to zero; see `C05_violated`. -/
theorem C05_reuse (hC : C.Lawful) (hR : Reached C r h) (hf : f ∈ r.fns) (hx : x ∈ r.pts)
    (hfo : h.fns[f]? = some o) (hreuse : o.reuse = true) (hp : Pruned C h x)
    (ho : oracle C f x h = .ok ((g, v), h1)) (hL : Later C (r.push g v) h1 r2 h2) :
    oracle C f x h2 = .ok ((g, v), h2) ∧ gradient C f x h2 = .ok (g, h2) ∧ value C f x h2 = .ok (v, h2) := by
  have i := hR.inv hC
  have hfl := i.fns f hf
  have i1 := inv_push hC i hf hx ho
  obtain ⟨e2, i2⟩ := hL.res hC i1
  obtain ⟨g', v', h', ho', res⟩ := oracle_run hC i.wf hfl (i.pts x hx)
  rw [ho] at ho'; cases ho'
  have hfl1 : f ∈ h1.fnList := by rw [res.fnList]; exact hfl
  have hl1 : lookup C h1 f x = some (g, v) := by
    rcases res.cases with ⟨hl, -, rfl⟩ | ⟨hn, -, hpts, -⟩
    · exact hl
    · refine lookup_record hC i.wf res.ext res.wf hfl hp (i.pts x hx) ?_ hpts
      rcases hn with h | h
      · exact h
      · rw [reuseOf_of hfo, hreuse] at h; cases h
  have hl2 := lookup_ext_some i1.wf e2 hfl1 (res.ext.pruned hp) hl1
  refine oracle_hit' hC i2.wf (e2.fnList.subset hfl1) (e2.ptLive (res.ext.ptLive (i.pts x hx))) hl2 ?_
  rw [reuseOf_ext i1.wf e2 hfl1, reuseOf_ext i.wf res.ext hfl, reuseOf_of hfo, hreuse]

/-- The same when the point was evaluated in any other way (stationary point, proximal step, `add_point`, evaluation of a sum). -/
theorem C05_evaluated (hC : C.Lawful) (hR : Reached C r h) (hf : f ∈ r.fns) (hx : x ∈ r.pts)
    (hfo : h.fns[f]? = some o) (hreuse : o.reuse = true) (hp : Pruned C h x) (hev : h.EvaluatedAt C f x) :
    ∃ g v, h.SampleOf f x g v ∧ ∀ r2 h2, Later C r h r2 h2 →
      oracle C f x h2 = .ok ((g, v), h2) ∧ gradient C f x h2 = .ok (g, h2) ∧ value C f x h2 = .ok (v, h2) := by
  have i := hR.inv hC
  have hfl := i.fns f hf
  obtain ⟨⟨g, v⟩, hl⟩ := Option.isSome_iff_exists.1 (lookup_isSome_iff.2 hev)
  refine ⟨g, v, lookup_some hC i.wf hfl (i.pts x hx) hl, ?_⟩
  intro r2 h2 hL
  obtain ⟨e2, i2⟩ := hL.res hC i
  refine oracle_hit' hC i2.wf (e2.fnList.subset hfl) (e2.ptLive (i.pts x hx)) (lookup_ext_some i.wf e2 hfl hp hl) ?_
  rw [reuseOf_ext i.wf e2 hfl, reuseOf_of hfo, hreuse]

/-- `f` smooth, `x - x` evaluated, then `0*x` evaluated twice -/
def C05_badProg : List Instr :=
  [.declare (.smoothConvex (some 1)), .initial, .pt (.sub (.reg 0) (.reg 0)), .oracle 0 1,
   .pt (.scale (Sym.num 0) (.reg 0)), .oracle 0 3, .oracle 0 3]

theorem ok_of_check {α : Type} {x : Except Err α} {P : α → Prop} [∀ a, Decidable (P a)]
    (hx : (match x with | .ok a => decide (P a) | .error _ => false) = true) : ∃ a, x = .ok a ∧ P a := by
  cases x with
  | error e => simp at hx
  | ok a => exact ⟨a, rfl, by simpa using hx⟩

/-- Without `Pruned` the property fails: the two last calls of `C05_badProg` are the same call on a function with gradient reuse,
but return different gradients and values. -/
theorem C05_violated : ∃ rh, runProblem refCAS C05_badProg Heap.empty = .ok rh ∧
    (rh.2.fns.map (·.reuse) = [true] ∧ rh.1.fns = [0] ∧ rh.1.pts.length = 6 ∧ rh.1.exs.length = 3 ∧
      rh.1.pts[4]? ≠ rh.1.pts[5]? ∧ rh.1.exs[1]? ≠ rh.1.exs[2]?) :=
  ok_of_check (by decide +kernel)

/-! ## C06 -/

/-- A declared function without gradient reuse (`L = inf`): each call returns a new leaf as gradient and the same value object;
`value` creates nothing. -/
theorem C06_fresh (hC : C.Lawful) (hR : Reached C r h) (hf : f ∈ r.fns) (hx : x ∈ r.pts)
    (hfo : h.fns[f]? = some o) (hleaf : o.leaf = true) (hreuse : o.reuse = false) (hp : Pruned C h x)
    (ho : oracle C f x h = .ok ((g, v), h1)) (hL : Later C (r.push g v) h1 r2 h2) :
    value C f x h2 = .ok (v, h2) ∧
    ∃ g' h3, oracle C f x h2 = .ok ((g', v), h3) ∧ gradient C f x h2 = .ok (g', h3) ∧
      ¬ h2.IsPt g' ∧ h3.leafPts = h2.leafPts ++ [g'] ∧ h3.leafExs = h2.leafExs ∧ h3.SampleOf f x g' v := by
  have i := hR.inv hC
  have hfl := i.fns f hf
  have i1 := inv_push hC i hf hx ho
  obtain ⟨e2, i2⟩ := hL.res hC i1
  obtain ⟨g', v', h', ho', res⟩ := oracle_run hC i.wf hfl (i.pts x hx)
  rw [ho] at ho'; cases ho'
  have hfl1 : f ∈ h1.fnList := by rw [res.fnList]; exact hfl
  have hfl2 := e2.fnList.subset hfl1
  have hx2 := e2.ptLive (res.ext.ptLive (i.pts x hx))
  have hl1 : ∃ g0, lookup C h1 f x = some (g0, v) := by
    rcases res.cases with ⟨hl, -, rfl⟩ | ⟨hn, hv, hpts, -⟩
    · exact ⟨g, hl⟩
    · cases hl : lookup C h f x with
      | none => exact ⟨g, lookup_record hC i.wf res.ext res.wf hfl hp (i.pts x hx) hl hpts⟩
      | some gv => rw [hv gv hl]; exact ⟨gv.1, lookup_ext_some i.wf res.ext hfl hp hl⟩
  obtain ⟨g0, hl1⟩ := hl1
  have hl2 := lookup_ext_some i1.wf e2 hfl1 (res.ext.pruned hp) hl1
  refine ⟨value_hit' hC i2.wf hfl2 hx2 hl2, ?_⟩
  obtain ⟨o2, ho2, fe⟩ := (res.ext.trans e2).fns f o hfo
  obtain ⟨g', v', h3, hr3, lr, lc⟩ := leafOracle_spec hC i2.wf hfl2 hx2 ho2 (by rw [fe.leaf]; exact hleaf) 98
  have hr2 : reuseOf h2 f = false := by rw [reuseOf_of ho2, fe.reuse, hreuse]
  cases lc with
  | hit hl hr hh => rw [hr2] at hr; cases hr
  | fresh hl => rw [hl2] at hl; cases hl
  | newGrad g1 hl hr hg hh =>
    rw [hl2] at hl; cases hl
    refine ⟨g', h3, hr3, gradient_run hr3, ?_, ?_, hh.leafExs, lr.sample⟩
    · intro hpo
      rw [hg] at hpo; exact absurd hpo (by simp [Heap.IsPt])
    · rw [hh.leafPts, hg]; rfl

/-- For every function, sums included: one value object per point. -/
theorem C06_value (hC : C.Lawful) (hR : Reached C r h) (hf : f ∈ r.fns) (hx : x ∈ r.pts) (hp : Pruned C h x)
    (ho : oracle C f x h = .ok ((g, v), h1)) (hL : Later C (r.push g v) h1 r2 h2) :
    value C f x h2 = .ok (v, h2) ∧ ∃ g' h3, oracle C f x h2 = .ok ((g', v), h3) := by
  have i := hR.inv hC
  have hfl := i.fns f hf
  have i1 := inv_push hC i hf hx ho
  obtain ⟨e2, i2⟩ := hL.res hC i1
  obtain ⟨g', v', h', ho', res⟩ := oracle_run hC i.wf hfl (i.pts x hx)
  rw [ho] at ho'; cases ho'
  have hfl1 : f ∈ h1.fnList := by rw [res.fnList]; exact hfl
  have hfl2 := e2.fnList.subset hfl1
  have hx2 := e2.ptLive (res.ext.ptLive (i.pts x hx))
  have hl1 : ∃ g0, lookup C h1 f x = some (g0, v) := by
    rcases res.cases with ⟨hl, -, rfl⟩ | ⟨hn, hv, hpts, -⟩
    · exact ⟨g, hl⟩
    · cases hl : lookup C h f x with
      | none => exact ⟨g, lookup_record hC i.wf res.ext res.wf hfl hp (i.pts x hx) hl hpts⟩
      | some gv => rw [hv gv hl]; exact ⟨gv.1, lookup_ext_some i.wf res.ext hfl hp hl⟩
  obtain ⟨g0, hl1⟩ := hl1
  have hl2 := lookup_ext_some i1.wf e2 hfl1 (res.ext.pruned hp) hl1
  refine ⟨value_hit' hC i2.wf hfl2 hx2 hl2, ?_⟩
  obtain ⟨g', v', h3, ho3, res3⟩ := oracle_run hC i2.wf hfl2 hx2
  have : v' = v := by
    rcases res3.cases with ⟨hl, -⟩ | ⟨-, hv, -⟩
    · rw [hl2] at hl; cases hl; rfl
    · exact hv _ hl2
  exact ⟨g', h3, this ▸ ho3⟩

/-! ## C07 -/

/-- `oracle` on a weighted sum (or any function): either the pair returned was recorded before and nothing changes, or it is recorded
now, and gradient and value are the weighted sums of samples of the terms at `x`, now and after any later calls.
`hterms`: if all terms reuse gradients then so does the sum; python makes it so unless a term without reuse cancelled out. -/
theorem C07_oracle (hC : C.Lawful) (hR : Reached C r h) (hf : f ∈ r.fns) (hx : x ∈ r.pts)
    (hfo : h.fns[f]? = some o) (hw : ∀ kw ∈ o.dict, kw.2 ≠ 0) (hp : Pruned C h x)
    (hterms : (∀ k ∈ o.dict.keys, ∃ ok, h.fns[k]? = some ok ∧ ok.reuse = true) → o.reuse = true)
    (ho : oracle C f x h = .ok ((g, v), h1)) :
    (h1 = h ∧ h.SampleOf f x g v) ∨
    (h1.SampleOf f x g v ∧ h1.SumConsistent o.dict x g v ∧
      ∀ r2 h2, Later C (r.push g v) h1 r2 h2 → h2.SumConsistent o.dict x g v) := by
  have i := hR.inv hC
  have hfl := i.fns f hf
  have i1 := inv_push hC i hf hx ho
  obtain ⟨g', v', h', ho', res⟩ := oracle_run hC i.wf hfl (i.pts x hx)
  rw [ho] at ho'; cases ho'
  rcases res.cases with ⟨hl, -, rfl⟩ | ⟨hn, hv, hpts, hs⟩
  · exact Or.inl ⟨rfl, lookup_some hC i.wf hfl (i.pts x hx) hl⟩
  · right
    obtain ⟨o1, ho1, fe⟩ := res.ext.fns f o hfo
    have hsc := hs o hfo hw (by
      intro hk
      refine hterms fun k hkk => ?_
      have := hk k hkk
      cases hko : h.fns[k]? with
      | none => simp [reuseOf, hko] at this
      | some ok => exact ⟨ok, rfl, by simpa [reuseOf, hko] using this⟩) hp
    refine ⟨⟨o1, x, ho1, by rw [hpts o o1 hfo ho1]; simp, samePoint_refl _ _⟩, hsc, ?_⟩
    intro r2 h2 hL
    obtain ⟨e2, i2⟩ := hL.res hC i1
    have ⟨o', ho', ok⟩ := i.wf.fn f hfl
    rw [hfo] at ho'; cases ho'
    exact sumConsistent_ext hC i1.wf e2 (fun k hk => res.ext.fnList.subset (by
      obtain ⟨kw, hkw, rfl⟩ := List.mem_map.1 hk
      exact ok.keys_fnList hfl kw hkw))
      (res.ext.isPt (i.pts x hx).isPt) res.gLive.isPt res.vLive.isEx hsc

/-- `add_point` on a weighted sum records the sample, and ties it to samples of the terms if some term was not evaluated at the
point before, or has no gradient reuse. -/
theorem C07_addPoint (hC : C.Lawful) (hR : Reached C r h) (hf : f ∈ r.fns) (hx : x ∈ r.pts) (hg : g ∈ r.pts) (hv : v ∈ r.exs)
    (hfo : h.fns[f]? = some o) (hsum : o.leaf = false) (hw : ∀ kw ∈ o.dict, kw.2 ≠ 0) (hp : Pruned C h x)
    (hfree : ∃ k ∈ o.dict.keys, ¬ h.EvaluatedAt C k x ∨ ∃ ok, h.fns[k]? = some ok ∧ ok.reuse = false) :
    ∃ h1, addPoint C f (x, g, v) h = .ok ((), h1) ∧ h1.SampleOf f x g v ∧ h1.SumConsistent o.dict x g v ∧
      ∀ r2 h2, Later C r h1 r2 h2 → h2.SumConsistent o.dict x g v := by
  have i := hR.inv hC
  have hfl := i.fns f hf
  obtain ⟨h1, hr1, a⟩ := addPoint_run hC i.wf hfl (t := (x, g, v)) ⟨i.pts x hx, i.pts g hg, i.exs v hv⟩
  obtain ⟨o1, ho1, hpts⟩ := a.points hfo
  have hsc := a.tied o hfo hsum hw hp (by
    obtain ⟨k, hk, hh⟩ := hfree
    refine ⟨k, hk, hh.imp (lookup_none_iff.2) ?_⟩
    rintro ⟨ok, h2, h3⟩
    rw [reuseOf_of h2, h3])
  refine ⟨h1, hr1, ⟨o1, x, ho1, by rw [hpts]; simp, samePoint_refl _ _⟩, hsc, ?_⟩
  intro r2 h2 hL
  obtain ⟨n, hn⟩ := List.getElem?_of_mem hf
  obtain ⟨nx, hnx⟩ := List.getElem?_of_mem hx
  obtain ⟨ng, hng⟩ := List.getElem?_of_mem hg
  obtain ⟨nv, hnv⟩ := List.getElem?_of_mem hv
  have hrun : runProg C [.addPoint n nx ng nv] r h = .ok (r, h1) := by
    have e1 : regGet r.fns n h = .ok (f, h) := by simp [regGet, hn, M.ofOption]
    have e2 : regGet r.pts nx h = .ok (x, h) := by simp [regGet, hnx, M.ofOption]
    have e3 : regGet r.pts ng h = .ok (g, h) := by simp [regGet, hng, M.ofOption]
    have e4 : regGet r.exs nv h = .ok (v, h) := by simp [regGet, hnv, M.ofOption]
    rw [runProg, Instr.run]
    refine M.bind_ok_iff.2 ⟨r, h1, ?_, rfl⟩
    rw [M.bind_of_ok e1, M.bind_of_ok e2, M.bind_of_ok e3, M.bind_of_ok e4, M.bind_of_ok hr1]; rfl
  have i1 := (prog_all hC _ i hrun).inv
  obtain ⟨e2, i2⟩ := hL.res hC i1
  have ⟨o', ho', ok⟩ := i.wf.fn f hfl
  rw [hfo] at ho'; cases ho'
  exact sumConsistent_ext hC i1.wf e2 (fun k hk => a.ext.fnList.subset (by
    obtain ⟨kw, hkw, rfl⟩ := List.mem_map.1 hk
    exact ok.keys_fnList hfl kw hkw))
    (a.ext.isPt (i.pts x hx).isPt) (a.ext.isPt (i.pts g hg).isPt) (a.ext.isEx (i.exs v hv).isEx) hsc

/-- both terms evaluated at `x`, then `(f1 + f2).add_point((x, y, f1(x)))` with an unrelated point `y` -/
def C07_badProg : List Instr :=
  [.declare (.smoothConvex (some 1)), .declare (.smoothConvex (some 1)), .fn (.add (.reg 0) (.reg 1)), .initial, .initial,
   .oracle 0 0, .oracle 1 0, .addPoint 2 0 1 0]

/-- `add_point` on a sum all of whose terms were evaluated at the point (with gradient reuse) records the sample for the sum only:
what is recorded for the sum is then unrelated to what is recorded for its terms. -/
theorem C07_violated : ∃ rh, runProblem refCAS C07_badProg Heap.empty = .ok rh ∧ rh.1.fns = [0, 1, 2] ∧ rh.1.pts = [0, 1, 2, 3] ∧
    rh.2.SampleOf 2 0 1 0 ∧ ¬ rh.2.SumConsistent [(0, 1), (1, 1)] 0 1 0 := by
  obtain ⟨rh, hrun, hp, hf, h1, h2, h3⟩ := ok_of_check (x := runProblem refCAS C07_badProg Heap.empty)
    (P := fun rh => rh.1.pts = [0, 1, 2, 3] ∧ rh.1.fns = [0, 1, 2] ∧
      rh.2.fns.map FnObj.points = [[(0, 2, 0)], [(0, 3, 1)], [(0, 1, 0)]] ∧
      rh.2.fns.map FnObj.dict = [[(0, 1)], [(1, 1)], [(0, 1), (1, 1)]] ∧
      rh.2.pts.map PtObj.dict = [[(0, Sym.num 1)], [(1, Sym.num 1)], [(2, Sym.num 1)], [(3, Sym.num 1)]])
    (by decide +kernel)
  refine ⟨rh, hrun, hf, hp, ?_, ?_⟩
  · have : (rh.2.fns.map FnObj.points)[2]? = some [(0, 1, 0)] := by rw [h1]; rfl
    rw [List.getElem?_map, Option.map_eq_some_iff] at this
    obtain ⟨o, ho, hpt⟩ := this
    exact ⟨o, 0, ho, by rw [hpt]; simp, samePoint_refl _ _⟩
  · rintro ⟨T, hT, hv⟩
    have key : ∀ (k a : ℕ) (e : ExId), (rh.2.fns.map FnObj.points)[k]? = some [(0, a, e)] → rh.2.SampleOf k 0 (T k).1 (T k).2 →
        (T k).1 = a := by
      rintro k a e hk ⟨o, p, ho, hm, -⟩
      rw [List.getElem?_map, ho] at hk
      simp only [Option.map_some, Option.some.injEq] at hk
      rw [hk] at hm
      simp only [List.mem_singleton, Prod.mk.injEq] at hm
      exact hm.2.1
    have t0 := key 0 2 0 (by rw [h1]; rfl) (hT 0 (by simp [Dict.keys]))
    have t1 := key 1 3 1 (by rw [h1]; rfl) (hT 1 (by simp [Dict.keys]))
    have hval : ∀ (φ : PtId → ℝ) (k : ℕ), (rh.2.pts.map PtObj.dict)[k]? = some [(k, Sym.num 1)] →
        rh.2.ptVal (fun _ => 0) φ k = φ k := by
      intro φ k hk
      rw [List.getElem?_map, Option.map_eq_some_iff] at hk
      obtain ⟨o, ho, hd⟩ := hk
      rw [ptVal_of ho, hd]
      simp [Dict.den, Sym.eval]
    have := (hv ℝ (fun _ => 0) (fun p => if p = 1 then 1 else 0) (fun _ => 0)).1
    rw [hval _ 1 (by rw [h3]; rfl)] at this
    simp only [List.map_cons, List.map_nil, t0, t1] at this
    rw [hval _ 2 (by rw [h3]; rfl), hval _ 3 (by rw [h3]; rfl)] at this
    norm_num at this

/-! ## C08 -/

/-- a leaf point that is not yet in the problem has no samples -/
theorem fresh_not_evaluated (w : WF C h) {k : ℕ} (hk : k ∈ h.fnList) (hf : h1.fns = h.fns) (hx : h1.pts[h.pts.length]? =
    some (PtObj.mk true (some h.ptCounter) [(h.pts.length, Sym.num 1)])) (ha : ∀ (p : ℕ) (o : PtObj), h.pts[p]? = some o → h1.pts[p]? = some o) :
    ¬ h1.EvaluatedAt C k h.pts.length := by
  rintro ⟨fo, xo, t, yo, h2, h3, h4, h5, h6⟩
  rw [hx] at h3; cases h3
  obtain ⟨o', ho', ok⟩ := w.fn k hk
  rw [hf, ho'] at h2; cases h2
  obtain ⟨yo', hy', -, hkeys⟩ := (ok.points t h4).1
  rw [ha _ _ hy'] at h5; cases h5
  simp only [Dict.eqB, Bool.and_eq_true, beq_iff_eq, List.all_eq_true, List.length_singleton] at h6
  obtain ⟨kv, hkv⟩ := List.length_eq_one_iff.1 h6.1
  have := h6.2 kv (by rw [hkv]; simp)
  have hmem := hkeys kv.1 (List.mem_map_of_mem (by rw [hkv]; simp))
  have hlt := w.leafPt_lt hmem
  by_cases he : kv.1 = h.pts.length
  · rw [he] at hlt; exact lt_irrefl _ hlt
  · rw [Dict.get?_cons, if_neg (fun hh => he hh.symm)] at this
    simp at this

/-- `f.stationary_point()` never fails.  It returns a new leaf point `x`, a gradient that denotes zero and a new leaf value, and
records them as a sample and as a stationary point of `f`. -/
theorem C08_stationary (hC : C.Lawful) (hR : Reached C r h) (hf : f ∈ r.fns) (hfo : h.fns[f]? = some o) :
    ∃ x g v h1, stationaryPoint C f h = .ok ((x, g, v), h1) ∧
      ¬ h.IsPt x ∧ h1.LeafPtNo x h.ptCounter ∧ ¬ h.IsEx v ∧ h1.LeafExNo v h.exCounter ∧
      (∃ o1, h1.fns[f]? = some o1 ∧ o1.points = o.points ++ [(x, g, v)] ∧ o1.stationary = o.stationary ++ [(x, g, v)]) ∧
      ∀ (E : Type) [NormedAddCommGroup E] [InnerProductSpace ℝ E] (env : Name → ℝ) (φ : PtId → E), h1.ptVal env φ g = 0 := by
  have i := hR.inv hC
  have hfl := i.fns f hf
  obtain ⟨h1, hr, a⟩ := stationary_run hC i.wf hfl
  have p := statHeap_prep i.wf
  refine ⟨_, _, _, h1, hr, by simp [IsPt], ?_, by simp [IsEx], ?_, ?_, ?_⟩
  · exact leafPtNo_next a.wf a.ext.leafPts i.wf
  · exact leafExNo_next a.wf a.ext.leafExs i.wf
  · refine a.stationary (by rw [p.fns]; exact hfo) (go := PtObj.mk false none []) ?_ rfl
    have hl : (h.addLeafPt).pts.length = h.pts.length + 1 := by simp [Heap.addLeafPt]
    show (h.addLeafPt.pts ++ [PtObj.mk false none []])[h.pts.length + 1]? = _
    rw [← hl]; simp
  · intro E _ _ env φ
    rw [a.ext.ptVal hC (statHeap_live i.wf).2.1.isPt]
    exact (statHeap_val hC i.wf env φ (fun _ => 0)).2.1

/-- The stationary point of a sum: zero is the weighted sum of gradients of the terms at `x`. -/
theorem C08_sum (hC : C.Lawful) (hR : Reached C r h) (hf : f ∈ r.fns) (hfo : h.fns[f]? = some o) (hsum : o.leaf = false)
    (hw : ∀ kw ∈ o.dict, kw.2 ≠ 0) (hne : o.dict ≠ []) {t : Triplet} (hrun : stationaryPoint C f h = .ok (t, h1)) :
    h1.SumConsistent o.dict t.1 t.2.1 t.2.2 := by
  have i := hR.inv hC
  have hfl := i.fns f hf
  obtain ⟨h1', hr, a⟩ := stationary_run hC i.wf hfl
  rw [hrun] at hr; cases hr
  have p := statHeap_prep i.wf
  have hx : (statHeap h).pts[h.pts.length]? = some (PtObj.mk true (some h.ptCounter) [(h.pts.length, Sym.num 1)]) := by
    show ((h.pts ++ [PtObj.mk true (some h.ptCounter) [(h.pts.length, Sym.num 1)]]) ++ _)[h.pts.length]? = _
    rw [List.getElem?_append_left (by simp)]; simp
  refine a.tied o (by rw [p.fns]; exact hfo) hsum hw ⟨_, hx, ?_⟩ ?_
  · intro kv hkv
    simp only [List.mem_singleton] at hkv
    rw [hkv]
    by_contra hb
    have := hC.eqB_sound _ _ (Bool.eq_true_of_not_eq_false hb) (fun _ => 0)
    norm_num at this
  · obtain ⟨kw, hkw⟩ := List.exists_mem_of_ne_nil _ hne
    refine ⟨kw.1, List.mem_map_of_mem hkw, Or.inl (lookup_none_iff.2 (fresh_not_evaluated i.wf ?_ p.fns hx ?_))⟩
    · obtain ⟨o', ho', ok⟩ := i.wf.fn f hfl
      rw [hfo] at ho'; cases ho'
      exact ok.keys_fnList hfl kw hkw
    · intro q qo hq
      show ((h.pts ++ [_]) ++ _)[q]? = _
      have := (List.getElem?_eq_some_iff.1 hq).1
      rw [List.getElem?_append_left (by simp; omega), List.getElem?_append_left this, hq]

/-! ## C09 -/

/-- `proximal_step(x0, f, gamma)` never fails.  It returns `x, g, v` with `x + gamma * g = x0`, where `g` and `v` are new leaves, and
records them as a sample of `f`. -/
theorem C09_prox (hC : C.Lawful) (hR : Reached C r h) (hf : f ∈ r.fns) (hfo : h.fns[f]? = some o) {x0 : ℕ} (hx : x0 ∈ r.pts)
    (gamma : Sym) :
    ∃ x g v h1, proximalStep C x0 f gamma h = .ok ((x, g, v), h1) ∧
      ¬ h.IsPt g ∧ h1.LeafPtNo g h.ptCounter ∧ ¬ h.IsEx v ∧ h1.LeafExNo v h.exCounter ∧
      (∃ o1, h1.fns[f]? = some o1 ∧ o1.points = o.points ++ [(x, g, v)]) ∧
      ∀ (E : Type) [NormedAddCommGroup E] [InnerProductSpace ℝ E] (env : Name → ℝ) (φ : PtId → E),
        h1.ptVal env φ x + gamma.eval env • h1.ptVal env φ g = h.ptVal env φ x0 ∧ h1.ptVal env φ x0 = h.ptVal env φ x0 := by
  have i := hR.inv hC
  have hfl := i.fns f hf
  obtain ⟨x, h2, h1, ad, hl, hv, hr, a⟩ := prox_run hC i.wf gamma hfl (i.pts x0 hx)
  have p := (conjHeap_prep i.wf).trans (Prep.onlyAdds (conjHeap_prep i.wf).wf ad)
  refine ⟨x, _, _, h1, hr, by simp [IsPt], ?_, by simp [IsEx], ?_, ?_, ?_⟩
  · refine leafPtNo_next a.wf ?_ i.wf
    have := a.ext.leafPts
    rw [ad.leafPts] at this
    exact this
  · refine leafExNo_next a.wf ?_ i.wf
    have := a.ext.leafExs
    rw [ad.leafExs] at this
    exact this
  · exact a.points (by rw [p.fns]; exact hfo)
  · intro E _ _ env φ
    refine ⟨?_, (p.ext.trans a.ext).ptVal hC (i.pts x0 hx).isPt env φ⟩
    rw [a.ext.ptVal hC hl.isPt, hv,
      ((Prep.onlyAdds (conjHeap_prep i.wf).wf ad).ext.trans a.ext).ptVal hC (conjHeap_live i.wf).1.isPt,
      (conjHeap_val hC i.wf env φ (fun _ => 0)).1]
    abel

/-- `subgrad_conjugate(g, f)` never fails.  It returns a new leaf `x` and records `(x, g, v)` as a sample of `f`, `v` a new leaf. -/
theorem C09_conjugate (hC : C.Lawful) (hR : Reached C r h) (hf : f ∈ r.fns) (hfo : h.fns[f]? = some o) (hg : g ∈ r.pts) :
    ∃ x v h1, subgradConjugate C g f h = .ok (x, h1) ∧
      ¬ h.IsPt x ∧ h1.LeafPtNo x h.ptCounter ∧ ¬ h.IsEx v ∧ h1.LeafExNo v h.exCounter ∧
      (∃ o1, h1.fns[f]? = some o1 ∧ o1.points = o.points ++ [(x, g, v)]) ∧
      ∀ (E : Type) [NormedAddCommGroup E] [InnerProductSpace ℝ E] (env : Name → ℝ) (φ : PtId → E),
        h1.ptVal env φ g = h.ptVal env φ g := by
  have i := hR.inv hC
  have hfl := i.fns f hf
  obtain ⟨h1, hr, a⟩ := conj_run hC i.wf hfl (i.pts g hg)
  have p := conjHeap_prep i.wf
  refine ⟨_, h.exs.length, h1, hr, by simp [IsPt], leafPtNo_next a.wf a.ext.leafPts i.wf, by simp [IsEx],
    leafExNo_next a.wf a.ext.leafExs i.wf, a.points (by rw [p.fns]; exact hfo), ?_⟩
  intro E _ _ env φ
  exact (p.ext.trans a.ext).ptVal hC (i.pts g hg).isPt env φ

/-! ### Non-vacuity -/

/-- `Pruned`, as a test -/
def prunedB (C : CAS) (h : Heap) (p : PtId) : Bool :=
  match h.pts[p]? with
  | some o => o.dict.all fun kv => !C.eqB kv.2 (Sym.num 0)
  | none => false
theorem pruned_of (hp : prunedB C h x = true) : Pruned C h x := by
  unfold prunedB at hp
  cases hx : h.pts[x]? with
  | none => rw [hx] at hp; cases hp
  | some o =>
    rw [hx] at hp
    refine ⟨o, hx, fun kv hkv => ?_⟩
    simpa using List.all_eq_true.1 hp kv hkv

/-- A reachable state with a smooth function 0, a non-smooth function 1, their sum 2 with weights 1 and 2, and the points `x` and
`x - alpha*y`, none of them evaluated, meets the hypotheses of C05-C09. -/
def oracleProg : List Instr :=
  [.declare (.smoothConvex (some 1)), .declare (.convex false), .fn (.add (.reg 0) (.scale 2 (.reg 1))), .initial, .initial,
   .pt (.sub (.reg 0) (.scale (Sym.var "alpha") (.reg 1)))]
example : ∃ rh, runProblem refCAS oracleProg Heap.empty = .ok rh ∧
    rh.1.fns = [0, 1, 3] ∧ rh.1.pts = [0, 1, 4] ∧
    rh.2.fns.map FnObj.leaf = [true, true, false, false] ∧ rh.2.fns.map FnObj.reuse = [true, false, false, false] ∧
    rh.2.fns.map FnObj.dict = [[(0, 1)], [(1, 1)], [(1, 2)], [(0, 1), (1, 2)]] ∧
    (rh.1.pts.all fun p => prunedB refCAS rh.2 p) = true :=
  ok_of_check (by decide +kernel)
/-- calls on the sum and its terms, then again: the smooth function reuses its gradient (registers 4 and 10), the other does not
(5 and 11), values are reused -/
example : ∃ rh, runProblem refCAS (oracleProg ++ [.oracle 2 2, .oracle 0 2, .oracle 1 2, .prox 0 2 (Sym.var "h"), .stationary 2,
      .oracle 0 2, .oracle 1 2]) Heap.empty = .ok rh ∧
    (rh.1.pts[4]? = rh.1.pts[10]? ∧ rh.1.pts[4]?.isSome ∧ rh.1.pts[5]? ≠ rh.1.pts[11]? ∧
     rh.1.exs[1]? = rh.1.exs[5]? ∧ rh.1.exs[2]? = rh.1.exs[6]? ∧ rh.1.exs[6]?.isSome) :=
  ok_of_check (by decide +kernel)

end Verif
