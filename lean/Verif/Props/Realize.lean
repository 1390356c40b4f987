import Verif.Proofs.Tied
import Verif.Props.Interpolate
import Verif.Props.Represent

/-!
# C67: values that satisfy the interpolation inequalities come from an execution
-/

namespace Verif
open Heap

variable {C : CAS} {h h0 : Heap} {r : Regs} {prog : List Instr}

/-- the inequalities imposed on the samples of the declared functions hold under the values `φ`, `ψ` of the leaves -/
def Heap.Interpolates {E : Type} [NormedAddCommGroup E] [InnerProductSpace ℝ E] (h : Heap) (r : Regs) (env : Name → ℝ) (φ : PtId → E)
    (ψ : ExId → ℝ) : Prop :=
  ∀ f ∈ r.decl, ∀ o, h.fns[f]? = some o → ∀ s ∈ o.points, ∀ t ∈ o.points,
    o.cls.lhs (h.ptVal env φ s.1) (h.ptVal env φ s.2.1) (h.exVal env φ ψ s.2.2)
      (h.ptVal env φ t.1) (h.ptVal env φ t.2.1) (h.exVal env φ ψ t.2.2) ≤ 0

/-- **C67.** The converse of C32.  Let a standard program run without error, and let `φ`, `ψ` be any values of the leaf Points and
Expressions in any real inner product space under which the inequalities of the declared classes hold for all pairs of recorded samples.
Then there are functions of the declared classes and a real execution of the program with them, in which the Points, Expressions,
constraints and metric of the script are the vectors and numbers that the leaf values give. -/
theorem C67_realize (hC : C.Lawful) (hr : runProblem C prog h0 = .ok (r, h)) (hst : Standard prog = true)
    (hd : ∀ d ∈ decls prog, d.Ok ∧ d.Default = true) {E : Type} [NormedAddCommGroup E] [InnerProductSpace ℝ E] (env : Name → ℝ)
    (φ : PtId → E) (ψ : ExId → ℝ) (hi : h.Interpolates r env φ ψ) :
    ∃ (fs : ℕ → CFun E) (rr : RRegs E), Instance prog fs ∧ RealExec fs env prog rr ∧
      rr.pts = r.pts.map (h.ptVal env φ) ∧ rr.exs = r.exs.map (h.exVal env φ ψ) ∧
      rr.cons = r.cons.map (fun c => (h.exVal env φ ψ c.1, c.2)) ∧ rr.metric = r.metric.map (h.exVal env φ ψ) := by
  have i := (prog_all hC prog (inv_reset h0) hr).inv
  obtain ⟨hlen, hcls⟩ := C32_classes hC hr
  -- one function per declaration
  have hF : ∀ k : ℕ, ∃ F : CFun E, ∀ d : FnDecl, (decls prog)[k]? = some d → d.Holds F ∧ ∀ (f : ℕ) (o : FnObj), r.decl[k]? = some f → h.fns[f]? = some o →
      ∀ t ∈ o.points, F.Sample (h.ptVal env φ t.1) (h.ptVal env φ t.2.1) (h.exVal env φ ψ t.2.2) := by
    intro k
    cases hk : (decls prog)[k]? with
    | none => exact ⟨⟨Set.univ, fun _ => 0⟩, fun d hd => by cases hd⟩
    | some d =>
      have hk' : k < r.decl.length := by rw [hlen]; exact (List.getElem?_eq_some_iff.1 hk).1
      have hf : r.decl[k]? = some r.decl[k] := List.getElem?_eq_getElem hk'
      obtain ⟨o, ho, -, hc, -⟩ := hcls k _ d hf hk
      have hmem := List.mem_of_getElem? hk
      obtain ⟨F, h1, h2⟩ := (C66_exact (E := E) (hd d hmem).1 (hd d hmem).2
        (o.points.map fun t => (h.ptVal env φ t.1, h.ptVal env φ t.2.1, h.exVal env φ ψ t.2.2))).1 (by
          simp only [List.forall_mem_map]
          intro s hs t ht
          rw [← hc]
          exact hi _ (List.getElem_mem hk') o ho s hs t ht)
      refine ⟨F, fun d' hd' => ?_⟩
      cases hd'
      refine ⟨h1, fun f o' hf' ho' t ht => ?_⟩
      rw [hf] at hf'
      cases hf'
      rw [ho] at ho'
      cases ho'
      exact h2 _ (List.mem_map_of_mem ht)
  choose fs hfs using hF
  have leaf : ∀ f ∈ r.decl, ∀ o, h.fns[f]? = some o → ∀ t ∈ o.points,
      SRel r.decl (fun k => (fs k).Sample) f (h.ptVal env φ t.1) (h.ptVal env φ t.2.1) (h.exVal env φ ψ t.2.2) := by
    intro f hf o ho t ht
    have hlt := List.idxOf_lt_length_of_mem hf
    have hk : (decls prog)[r.decl.idxOf f]? = some (decls prog)[r.decl.idxOf f] := List.getElem?_eq_getElem (by omega)
    exact (hfs _ _ hk).2 f o (by rw [List.getElem?_eq_getElem hlt]; exact congrArg some (List.getElem_idxOf hlt)) ho t ht
  have ts : h.TrueSamples (SRel r.decl fun k => (fs k).Sample) env φ ψ := by
    intro f hf o ho t ht
    obtain ⟨o', ho', ok⟩ := i.wf.fn f hf
    rw [ho] at ho'
    cases ho'
    cases hl : o.leaf with
    | true =>
      rw [ok.leafDict hl]
      exact comb_leaf.2 (leaf f (i.mem_decl hf ho hl) o ho t ht)
    | false =>
      obtain ⟨T, h1, h2⟩ := tied_problem hC hst hr f hf o ho hl t ht
      obtain ⟨h3, h4⟩ := h2 E env φ ψ
      refine ⟨fun k => h.ptVal env φ (T k).1, fun k => h.exVal env φ ψ (T k).2, fun kw hkw _ => ?_, h3, ?_⟩
      · obtain ⟨ok', p, hk, hm, hsp⟩ := h1 kw.1 (List.mem_map_of_mem hkw)
        have := leaf kw.1 (i.keys_decl hf ho kw.1 (List.mem_map_of_mem hkw)) ok' hk _ hm
        simp only at this
        rwa [hsp E env φ] at this
      · rw [h4]; simp [Dict.den]
  obtain ⟨rr, ex, s⟩ := prog_back hC prog (inv_reset h0) hr (D := r.decl) List.prefix_rfl ts
    (rr := RRegs.empty E) ⟨rfl, rfl, rfl, rfl, rfl, rfl⟩
  exact ⟨fs, rr, fun k d hk => (hfs k d hk).1, ex, s.pts, s.exs, s.cons, s.metric⟩

/-- **C67** with C32: for a standard program the values of the script's objects in real executions are exactly the values given by leaves that
satisfy the inequalities of the declared classes. -/
theorem C67_iff (hC : C.Lawful) (hr : runProblem C prog h0 = .ok (r, h)) (hst : Standard prog = true)
    (hd : ∀ d ∈ decls prog, d.Ok ∧ d.Default = true) {E : Type} [NormedAddCommGroup E] [InnerProductSpace ℝ E] (env : Name → ℝ)
    (pts : List E) (exs : List ℝ) (cons : List (ℝ × Kind)) (metric : Option ℝ) :
    (∃ (fs : ℕ → CFun E) (rr : RRegs E), Instance prog fs ∧ RealExec fs env prog rr ∧
      rr.pts = pts ∧ rr.exs = exs ∧ rr.cons = cons ∧ rr.metric = metric) ↔
    ∃ (φ : PtId → E) (ψ : ExId → ℝ), h.Interpolates r env φ ψ ∧
      r.pts.map (h.ptVal env φ) = pts ∧ r.exs.map (h.exVal env φ ψ) = exs ∧
      r.cons.map (fun c => (h.exVal env φ ψ c.1, c.2)) = cons ∧ r.metric.map (h.exVal env φ ψ) = metric := by
  constructor
  · rintro ⟨fs, rr, hf, ex, rfl, rfl, rfl, rfl⟩
    obtain ⟨φ, ψ, h1, h2, h3, h4, h5⟩ := C32_represent hC hr fs hf env ex
    refine ⟨φ, ψ, ?_, h1, h2, h3, h4⟩
    obtain ⟨hlen, hcls⟩ := C32_classes hC hr
    intro f hfm o ho s hs t ht
    obtain ⟨k, hk, rfl⟩ := List.getElem_of_mem hfm
    have hfk : r.decl[k]? = some r.decl[k] := List.getElem?_eq_getElem hk
    have hdk : (decls prog)[k]? = some (decls prog)[k] := List.getElem?_eq_getElem (by omega)
    obtain ⟨o', ho', -, hc, -⟩ := hcls k _ _ hfk hdk
    rw [ho] at ho'
    cases ho'
    rw [hc]
    exact lhs_nonpos (hd _ (List.getElem_mem _)).1 (hf k _ hdk) (h5 k _ o hfk ho s hs) (h5 k _ o hfk ho t ht)
  · rintro ⟨φ, ψ, hi, rfl, rfl, rfl, rfl⟩
    exact C67_realize hC hr hst hd env φ ψ hi

/-! ### Non-vacuity -/

/-- one gradient step, with the run behind it -/
example : ∃ r h, runProblem refCAS gdProg exampleHeap = .ok (r, h) ∧ Standard gdProg = true ∧ (∀ d ∈ decls gdProg, d.Ok ∧ d.Default = true) ∧
    ∃ (φ : PtId → ℝ) (ψ : ExId → ℝ), h.Interpolates r (fun _ => 1 / 3) φ ψ ∧ r.pts.map (h.ptVal (fun _ => 1 / 3) φ) = [0, 0, 3, 6, 1, 2] ∧
      r.metric.map (h.exVal (fun _ => 1 / 3) φ ψ) = some (-8) := by
  obtain ⟨⟨r, h⟩, e⟩ := (C04_errors refCAS_lawful gdProg exampleHeap).2 (by decide +kernel)
  have hd : ∀ d ∈ decls gdProg, d.Ok ∧ d.Default = true := by
    intro d hd
    simp only [gdProg, decls, List.mem_cons, List.not_mem_nil, or_false] at hd
    subst hd
    exact ⟨by norm_num [FnDecl.Ok], rfl⟩
  refine ⟨r, h, e, by decide, hd, ?_⟩
  obtain ⟨φ, ψ, h1, h2, -, -, h5⟩ := (C67_iff refCAS_lawful e (by decide) hd (E := ℝ) (fun _ => 1 / 3)
    [0, 0, 3, 6, 1, 2] [0, 9, 1, -8] [] (some (-8))).1 (by
      refine ⟨fun _ => sqFun, ⟨[0, 0, 3, 6, 1, 2], [0, 9, 1, -8], [Finsupp.single 0 1], 1, [], some (-8)⟩, ?_, ?_, rfl, rfl, rfl, rfl⟩
      · intro k d hk
        simp only [gdProg, decls] at hk
        obtain ⟨h1, rfl⟩ := List.getElem?_eq_some_iff.1 hk
        simp only [List.length_cons, List.length_nil, zero_add, Nat.lt_one_iff] at h1
        subst h1
        exact ⟨rfl, sqFun_strong.mono (by norm_num : (0:ℝ) ≤ 2) |> strongConvexOn_zero.1, sqFun_lip (by norm_num)⟩
      · have s := fun x g v (hg : g = 2 * x) (hv : v = x ^ 2) => sumSample_single (SR := fun _ => sqFun.Sample) (k := 0)
          (x := x) (g := g) (v := v) (by rw [hg, hv]; exact sqFun_sample x)
        unfold RealExec gdProg
        refine .cons (.declare _ _) (.cons (.stationary _ _ 0 0 (s _ _ _ (by norm_num) (by norm_num))) (.cons (.initial _ 3)
          (.cons (.oracle _ _ _ 6 9 (s _ _ _ (by norm_num [RRegs.empty]) (by norm_num [RRegs.empty]))) (.cons (.pt _ _)
          (.cons (.oracle _ _ _ 2 1 (s _ _ _ ?_ ?_)) (.cons (.ex _ _) (.cons (.metric _ _) ?_)))))))
        · norm_num [RRegs.empty, PE.den, Sym.eval]
        · norm_num [RRegs.empty, PE.den, Sym.eval]
        · convert Exec.nil _ using 1
          norm_num [RRegs.empty, PE.den, EE.den, Sym.eval])
  exact ⟨φ, ψ, h1, h2, h5⟩

end Verif
