import Verif.Spec.Represent
import Verif.Proofs.Interp
import Verif.Proofs.ProgramAll
import Verif.Proofs.Registry

namespace Verif
open Heap

variable {C : CAS}

/-- function object `f` was made by the declaration `d` -/
def DeclaredAs (h : Heap) (d : FnDecl) (f : FnId) : Prop :=
  ∃ o, h.fns[f]? = some o ∧ o.leaf = true ∧ o.cls = d.cls ∧ o.reuse = d.reuse

theorem DeclaredAs.ext {h h' : Heap} (e : Ext C h h') {d : FnDecl} {f : FnId} (hd : DeclaredAs h d f) : DeclaredAs h' d f := by
  obtain ⟨o, ho, h1, h2, h3⟩ := hd
  obtain ⟨o', ho', fe⟩ := e.fns f o ho
  exact ⟨o', ho', fe.leaf.trans h1, fe.cls.trans h2, fe.reuse.trans h3⟩

theorem declare_declared {d : FnDecl} {h h' : Heap} {f : FnId} (hr : declareFunction d h = .ok (f, h')) : DeclaredAs h' d f := by
  cases d with
  | convex re | strongly mu re =>
    simp only [declareFunction, newLeafFn, Except.ok.injEq, Prod.mk.injEq] at hr
    obtain ⟨rfl, rfl⟩ := hr
    exact ⟨_, by simp; rfl, rfl, rfl, rfl⟩
  | smoothStrongly mu L =>
    cases L with
    | none => simp [declareFunction, M.throw] at hr
    | some L =>
      simp only [declareFunction, newLeafFn, Except.ok.injEq, Prod.mk.injEq] at hr
      obtain ⟨rfl, rfl⟩ := hr
      exact ⟨_, by simp; rfl, rfl, rfl, rfl⟩
  | smoothConvex L =>
    cases L with
    | none => simp [declareFunction, M.throw] at hr
    | some L =>
      simp only [declareFunction, newLeafFn, Except.ok.injEq, Prod.mk.injEq] at hr
      obtain ⟨rfl, rfl⟩ := hr
      exact ⟨_, by simp; rfl, rfl, rfl, rfl⟩

/-- only `declare` changes the list of declared functions -/
theorem run_decl {ins : Instr} {r r' : Regs} {h h' : Heap} (hr : ins.run C r h = .ok (r', h')) :
    ∃ l, r'.decl = r.decl ++ l ∧ List.Forall₂ (DeclaredAs h') (decls [ins]) l := by
  cases ins with
  | declare d =>
    obtain ⟨f, h1, e1, hr⟩ := M.bind_ok_iff.1 hr
    have hd := declare_declared e1
    simp only [pure, M.pure, Except.ok.injEq, Prod.mk.injEq] at hr
    obtain ⟨rfl, rfl⟩ := hr
    exact ⟨[f], rfl, List.Forall₂.cons hd .nil⟩
  | _ =>
    refine ⟨[], ?_, List.Forall₂.nil⟩
    simp only [Instr.run, M.bind_ok_iff, pure, M.pure, Except.ok.injEq, Prod.mk.injEq] at hr
    first
    | (obtain ⟨rfl, -⟩ := hr; simp)
    | (obtain ⟨_, _, -, rfl, -⟩ := hr; simp)
    | (obtain ⟨_, _, -, _, _, -, rfl, -⟩ := hr; simp)
    | (obtain ⟨_, _, -, _, _, -, _, _, -, rfl, -⟩ := hr; simp)
    | (obtain ⟨_, _, -, _, _, -, _, _, -, _, _, -, rfl, -⟩ := hr; simp)
    | (obtain ⟨_, _, -, _, _, -, _, _, -, _, _, -, _, _, -, rfl, -⟩ := hr; simp)

theorem decls_cons (i : Instr) (is : List Instr) : decls (i :: is) = decls [i] ++ decls is := by
  cases i <;> rfl

theorem prog_decl (hC : C.Lawful) (prog : List Instr) : ∀ {r r' : Regs} {h h' : Heap}, Inv C r h → runProg C prog r h = .ok (r', h') →
    ∃ l, r'.decl = r.decl ++ l ∧ List.Forall₂ (DeclaredAs h') (decls prog) l := by
  induction prog with
  | nil =>
    intro r r' h h' i hr
    obtain ⟨rfl, rfl⟩ : r = r' ∧ h = h' := by simpa [runProg, pure, M.pure] using hr
    exact ⟨[], by simp, .nil⟩
  | cons ins prog ih =>
    intro r r' h h' i hr
    obtain ⟨r1, h1, e1, hr⟩ := M.bind_ok_iff.1 hr
    have i1 : Inv C r1 h1 := (prog_all hC [ins] i (r' := r1) (h' := h1)
      (by rw [runProg, M.bind_of_ok e1]; rfl)).inv
    obtain ⟨l1, hl1, f1⟩ := run_decl e1
    obtain ⟨l2, hl2, f2⟩ := ih i1 hr
    have ex := (prog_all hC prog i1 hr).ext
    refine ⟨l1 ++ l2, by rw [hl2, hl1, List.append_assoc], ?_⟩
    rw [decls_cons]
    exact List.rel_append (f1.imp fun _ _ hd => hd.ext ex) f2

theorem FnDecl.Holds.unique {E : Type} [NormedAddCommGroup E] [InnerProductSpace ℝ E] {d : FnDecl} {F : CFun E} (hF : d.Holds F)
    (hr : d.reuse = true) {x g g' : E} {v v' : ℝ} (s : F.Sample x g v) (s' : F.Sample x g' v') : g = g' := by
  match d, hF with
  | .convex r, hF => exact hF.2 hr _ _ _ _ _ s s'
  | .strongly mu r, hF => exact hF.2 hr _ _ _ _ _ s s'
  | .smoothConvex (some L), ⟨hdom, _, G, hG, _⟩ => rw [subgrad_unique hdom (hG x) s, subgrad_unique hdom (hG x) s']
  | .smoothStrongly mu (some L), ⟨hdom, _, G, hG, _⟩ => rw [subgrad_unique hdom (hG x) s, subgrad_unique hdom (hG x) s']

/-- the registers of a problem whose program succeeded, and the classes of its leaf functions -/
theorem problem_decl (hC : C.Lawful) {prog : List Instr} {h0 h : Heap} {r : Regs} (hr : runProblem C prog h0 = .ok (r, h)) :
    List.Forall₂ (DeclaredAs h) (decls prog) r.decl := by
  obtain ⟨l, hl, f⟩ := prog_decl hC prog (inv_reset h0) hr
  rw [hl]; simpa [Regs.empty] using f

theorem represent (hC : C.Lawful) {prog : List Instr} {h0 h : Heap} {r : Regs} (hr : runProblem C prog h0 = .ok (r, h))
    {E : Type} [NormedAddCommGroup E] [InnerProductSpace ℝ E] (fs : ℕ → CFun E) (hf : Instance prog fs) (env : Name → ℝ)
    {rr : RRegs E} (ex : RealExec fs env prog rr) :
    ∃ (φ : PtId → E) (ψ : ExId → ℝ), SimRegs r.decl env φ ψ r h rr ∧
      ∀ (k f : ℕ) (o : FnObj), r.decl[k]? = some f → h.fns[f]? = some o → ∀ t ∈ o.points,
        (fs k).Sample (h.ptVal env φ t.1) (h.ptVal env φ t.2.1) (h.exVal env φ ψ t.2.2) := by
  have hd := problem_decl hC hr
  have hp := prog_all hC prog (inv_reset h0) hr
  have hidx : ∀ (k f : ℕ), r.decl[k]? = some f → r.decl.idxOf f = k := by
    intro k f hk
    obtain ⟨hlt, rfl⟩ := List.getElem?_eq_some_iff.1 hk
    exact List.Nodup.idxOf_getElem hp.inv.declNodup _ hlt
  obtain ⟨φ, ψ, -, s, t⟩ := hp.sim E (fun k => (fs k).Sample) env (fun _ => 0) (fun _ => 0) r.decl (RRegs.empty E) rr
    List.prefix_rfl hp.inv.declNodup
    ⟨fun f x g v g' v' s s' => s.2.1.symm.trans s'.2.1, by
      intro f hfl o ho hl hre x g v g' v' s s'
      have hm : f ∈ r.decl := by
        rw [hp.inv.decl, leafFns, List.mem_filter]; exact ⟨hfl, by rw [leafOf_of ho, hl]⟩
      obtain ⟨k, hk⟩ := List.getElem?_of_mem hm
      obtain ⟨d, hdk⟩ : ∃ d, (decls prog)[k]? = some d := by
        have := (List.getElem?_eq_some_iff.1 hk).1
        exact ⟨_, List.getElem?_eq_getElem (by rw [hd.length_eq]; exact this)⟩
      obtain ⟨o', ho', -, -, hr'⟩ : DeclaredAs h d f := by
        have := List.forall₂_iff_get.1 hd
        obtain ⟨h1, e1⟩ := List.getElem?_eq_some_iff.1 hdk
        obtain ⟨h2, e2⟩ := List.getElem?_eq_some_iff.1 hk
        have := this.2 k h1 h2
        simpa [e1, e2] using this
      obtain rfl : o = o' := by rw [ho] at ho'; exact Option.some.inj ho'
      have s1 : (fs k).Sample x g v := by have := s; rw [SRel, hidx k f hk] at this; exact this
      have s2 : (fs k).Sample x g' v' := by have := s'; rw [SRel, hidx k f hk] at this; exact this
      exact (hf k d hdk).unique (hr'.symm.trans hre) s1 s2⟩
    ⟨rfl, rfl, rfl, rfl, rfl, rfl⟩
    (by intro f hf; simp [Heap.reset] at hf) ex
  refine ⟨φ, ψ, s, ?_⟩
  intro k f o hk ho tr htr
  have hm : f ∈ r.decl := List.mem_of_getElem? hk
  rw [hp.inv.decl, leafFns, List.mem_filter] at hm
  obtain ⟨o', ho', fo⟩ := hp.inv.wf.fn f hm.1
  obtain rfl : o = o' := by rw [ho] at ho'; exact Option.some.inj ho'
  have hleaf : o.leaf = true := by have := hm.2; rwa [leafOf_of ho] at this
  have := t f hm.1 o ho tr htr
  rw [fo.leafDict hleaf, comb_leaf, SRel, hidx k f hk] at this
  exact this

end Verif
