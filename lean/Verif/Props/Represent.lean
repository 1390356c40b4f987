import Verif.Props.Classes
import Verif.Props.Registry

/-!
# C32: every real execution is represented by the symbolic problem
-/

namespace Verif
open Heap

variable {C : CAS} {h h0 : Heap} {r : Regs} {prog : List Instr}

/-- **C32.** Let the program run without error.  Take any real inner product space, any functions of the declared classes, any
values of the parameters and any real execution of the program (`Spec/Exec`: arbitrary starting points, any subgradient at each
oracle call, any point satisfying the implicit step, any stationary point).  Then there are values of the leaves under which every
Point, Expression, constraint and the metric denote the vectors and numbers of the execution, and all samples recorded for the
`k`-th declared function are samples of the `k`-th function. -/
theorem C32_represent (hC : C.Lawful) (hr : runProblem C prog h0 = .ok (r, h))
    {E : Type} [NormedAddCommGroup E] [InnerProductSpace ℝ E] (fs : ℕ → CFun E) (hf : Instance prog fs) (env : Name → ℝ)
    {rr : RRegs E} (ex : RealExec fs env prog rr) :
    ∃ (φ : PtId → E) (ψ : ExId → ℝ),
      r.pts.map (h.ptVal env φ) = rr.pts ∧
      r.exs.map (h.exVal env φ ψ) = rr.exs ∧
      r.cons.map (fun c => (h.exVal env φ ψ c.1, c.2)) = rr.cons ∧
      r.metric.map (h.exVal env φ ψ) = rr.metric ∧
      ∀ (k f : ℕ) (o : FnObj), r.decl[k]? = some f → h.fns[f]? = some o → ∀ t ∈ o.points,
        (fs k).Sample (h.ptVal env φ t.1) (h.ptVal env φ t.2.1) (h.exVal env φ ψ t.2.2) := by
  obtain ⟨φ, ψ, s, t⟩ := represent hC hr fs hf env ex
  exact ⟨φ, ψ, s.pts.symm, s.exs.symm, s.cons.symm, s.metric.symm, t⟩

/-- **C32**, the classes: the `k`-th declared function of the problem is a leaf function with the class and gradient policy of the
`k`-th declaration of the program, and there are as many. -/
theorem C32_classes (hC : C.Lawful) (hr : runProblem C prog h0 = .ok (r, h)) :
    r.decl.length = (decls prog).length ∧
    ∀ (k f : ℕ) (d : FnDecl), r.decl[k]? = some f → (decls prog)[k]? = some d →
      ∃ o, h.fns[f]? = some o ∧ o.leaf = true ∧ o.cls = d.cls ∧ o.reuse = d.reuse := by
  have hd := problem_decl hC hr
  refine ⟨hd.length_eq.symm, ?_⟩
  intro k f d hk hdk
  obtain ⟨h1, e1⟩ := List.getElem?_eq_some_iff.1 hdk
  obtain ⟨h2, e2⟩ := List.getElem?_eq_some_iff.1 hk
  have := (List.forall₂_iff_get.1 hd).2 k h1 h2
  simpa [e1, e2, DeclaredAs] using this

/-! ### Non-vacuity: two gradient steps on `x²` -/

def gdProg : List Instr :=
  [.declare (.smoothConvex (some 2)), .stationary 0, .initial, .oracle 0 2, .pt (.sub (.reg 2) (.scale (Sym.var "h") (.reg 3))),
   .oracle 0 4, .ex (.sub (.reg 2) (.reg 1)), .metric 3]

example : ∃ r h, runProblem refCAS gdProg exampleHeap = .ok (r, h) := by
  have := (C04_errors refCAS_lawful gdProg exampleHeap).2 (by decide +kernel)
  obtain ⟨⟨r, h⟩, e⟩ := this
  exact ⟨r, h, e⟩

theorem sqFun_sample (x : ℝ) : sqFun.Sample x (2 * x) (x ^ 2) :=
  ⟨trivial, rfl, fun y _ => by simp [sqFun]; nlinarith [sq_nonneg (y - x)]⟩

theorem sumSample_single {E : Type} [NormedAddCommGroup E] [InnerProductSpace ℝ E] {SR : ℕ → E → E → ℝ → Prop} {k : ℕ} {x g : E} {v : ℝ}
    (hs : SR k x g v) : SumSample SR (Finsupp.single k 1) x g v := by
  refine ⟨fun _ => g, fun _ => v, ?_, ?_, ?_⟩
  · intro j hj
    have : j = k := by simpa using Finsupp.support_single_subset hj
    subst this; exact hs
  · rw [Finsupp.sum_single_index] <;> simp
  · rw [Finsupp.sum_single_index] <;> simp

/-- the execution of `gdProg` on `x²` from 3 with step 1/3 -/
example : Instance gdProg (fun _ => sqFun) ∧ RealExec (fun _ => sqFun) (fun _ => 1/3) gdProg
    ⟨[0, 0, 3, 6, 1, 2], [0, 9, 1, -8], [Finsupp.single 0 1], 1, [], some (-8)⟩ := by
  refine ⟨?_, ?_⟩
  · intro k d hk
    simp only [gdProg, decls] at hk
    obtain ⟨h1, rfl⟩ := List.getElem?_eq_some_iff.1 hk
    simp only [List.length_cons, List.length_nil, zero_add, Nat.lt_one_iff] at h1
    subst h1
    exact ⟨rfl, sqFun_strong.mono (by norm_num : (0:ℝ) ≤ 2) |> strongConvexOn_zero.1, sqFun_lip (by norm_num)⟩
  · have s := fun x g v (hg : g = 2 * x) (hv : v = x ^ 2) => sumSample_single (SR := fun _ => sqFun.Sample) (k := 0)
      (x := x) (g := g) (v := v) (by rw [hg, hv]; exact sqFun_sample x)
    unfold RealExec gdProg
    refine .cons (.declare _ _) (.cons (.stationary _ _ 0 0 (s _ _ _ (by norm_num) (by norm_num))) (.cons (.initial _ 3)
      (.cons (.oracle _ _ _ 6 9 (s _ _ _ (by norm_num [RRegs.empty]) (by norm_num [RRegs.empty]))) (.cons (.pt _ _)
      (.cons (.oracle _ _ _ 2 1 (s _ _ _ ?_ ?_)) (.cons (.ex _ _) (.cons (.metric _ _) ?_)))))))
    · norm_num [RRegs.empty, PE.den, Sym.eval]
    · norm_num [RRegs.empty, PE.den, Sym.eval]
    · convert Exec.nil _ using 1
      norm_num [RRegs.empty, PE.den, EE.den, Sym.eval]

end Verif
