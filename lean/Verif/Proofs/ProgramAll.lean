import Verif.Proofs.StepAll

namespace Verif
open Heap

variable {C : CAS}

theorem PE.safe_of_ok {ps : List PtId} (a : PE) : ∀ {h : Heap} {r}, a.run C ps h = .ok r → a.Safe ps.length = true := by
  induction a with
  | reg i => intro h r hr; simpa [PE.Safe] using regGet_ok hr
  | add a b iha ihb | sub a b iha ihb =>
    intro h r hr
    obtain ⟨x, h1, e1, hr⟩ := M.bind_ok_iff.1 hr
    obtain ⟨y, h2, e2, hr⟩ := M.bind_ok_iff.1 hr
    simp [PE.Safe, iha e1, ihb e2]
  | neg a iha | scale s a iha =>
    intro h r hr
    obtain ⟨x, h1, e1, hr⟩ := M.bind_ok_iff.1 hr
    simp [PE.Safe, iha e1]
  | div a c iha =>
    intro h r hr
    obtain ⟨x, h1, e1, hr⟩ := M.bind_ok_iff.1 hr
    have : c ≠ 0 := by
      intro hc; rw [ptDiv, if_pos hc] at hr; simp [M.throw] at hr
    simp [PE.Safe, iha e1, this]

theorem EE.safe_of_ok {ps : List PtId} {es : List ExId} (a : EE) :
    ∀ {h : Heap} {r}, a.run C ps es h = .ok r → a.Safe ps.length es.length = true := by
  induction a with
  | reg i => intro h r hr; simpa [EE.Safe] using regGet_ok hr
  | inner a b =>
    intro h r hr
    obtain ⟨x, h1, e1, hr⟩ := M.bind_ok_iff.1 hr
    obtain ⟨y, h2, e2, hr⟩ := M.bind_ok_iff.1 hr
    simp [EE.Safe, a.safe_of_ok e1, b.safe_of_ok e2]
  | pow a n =>
    intro h r hr
    obtain ⟨x, h1, e1, hr⟩ := M.bind_ok_iff.1 hr
    obtain ⟨y, h2, e2, hr⟩ := M.bind_ok_iff.1 hr
    have : n = 2 := by
      by_contra hc; simp [M.assert, hc, M.throw] at e2
    simp [EE.Safe, a.safe_of_ok e1, this]
  | add a b iha ihb | sub a b iha ihb =>
    intro h r hr
    obtain ⟨x, h1, e1, hr⟩ := M.bind_ok_iff.1 hr
    obtain ⟨y, h2, e2, hr⟩ := M.bind_ok_iff.1 hr
    simp [EE.Safe, iha e1, ihb e2]
  | neg a iha | scale s a iha | addNum a c iha | subNum a c iha | rsubNum c a iha =>
    intro h r hr
    obtain ⟨x, h1, e1, hr⟩ := M.bind_ok_iff.1 hr
    simp [EE.Safe, iha e1]
  | div a c iha =>
    intro h r hr
    obtain ⟨x, h1, e1, hr⟩ := M.bind_ok_iff.1 hr
    have : c ≠ 0 := by
      intro hc; rw [exDiv, if_pos hc] at hr; simp [M.throw] at hr
    simp [EE.Safe, iha e1, this]

theorem FE.safe_of_ok {fs : List FnId} (a : FE) : ∀ {h : Heap} {r}, a.run fs h = .ok r → a.Safe fs.length = true := by
  induction a with
  | reg i => intro h r hr; simpa [FE.Safe] using regGet_ok hr
  | add a b iha ihb | sub a b iha ihb =>
    intro h r hr
    obtain ⟨x, h1, e1, hr⟩ := M.bind_ok_iff.1 hr
    obtain ⟨y, h2, e2, hr⟩ := M.bind_ok_iff.1 hr
    simp [FE.Safe, iha e1, ihb e2]
  | neg a iha | scale s a iha =>
    intro h r hr
    obtain ⟨x, h1, e1, hr⟩ := M.bind_ok_iff.1 hr
    simp [FE.Safe, iha e1]
  | div a c iha =>
    intro h r hr
    obtain ⟨x, h1, e1, hr⟩ := M.bind_ok_iff.1 hr
    have : c ≠ 0 := by
      intro hc; rw [fnDiv, if_pos hc] at hr; simp [M.throw] at hr
    simp [FE.Safe, iha e1, this]

theorem Instr.safe_of_ok {ins : Instr} {r : Regs} {h : Heap} {v} (hr : ins.run C r h = .ok v) : ins.Safe r.counts = true := by
  cases ins with
  | declare d =>
    obtain ⟨x, h1, e1, -⟩ := M.bind_ok_iff.1 hr
    cases d with
    | convex re => rfl
    | strongly mu re => rfl
    | smoothStrongly mu L => cases L <;> first | rfl | simp [declareFunction, M.throw] at e1
    | smoothConvex L => cases L <;> first | rfl | simp [declareFunction, M.throw] at e1
  | fn a => obtain ⟨x, h1, e1, -⟩ := M.bind_ok_iff.1 hr; exact a.safe_of_ok e1
  | pt a => obtain ⟨x, h1, e1, -⟩ := M.bind_ok_iff.1 hr; exact a.safe_of_ok e1
  | ex a => obtain ⟨x, h1, e1, -⟩ := M.bind_ok_iff.1 hr; exact a.safe_of_ok e1
  | initial => rfl
  | stationary f =>
    obtain ⟨x, h1, e1, hr⟩ := M.bind_ok_iff.1 hr
    exact decide_eq_true (regGet_ok e1)
  | oracle f x | gradient f x | value f x | prox x f g | conj x f =>
    obtain ⟨a, h1, e1, hr⟩ := M.bind_ok_iff.1 hr
    obtain ⟨b, h2, e2, hr⟩ := M.bind_ok_iff.1 hr
    exact Bool.and_eq_true _ _ ▸ ⟨decide_eq_true (regGet_ok e1), decide_eq_true (regGet_ok e2)⟩
  | addPoint f x g v =>
    obtain ⟨a, h1, e1, hr⟩ := M.bind_ok_iff.1 hr
    obtain ⟨b, h2, e2, hr⟩ := M.bind_ok_iff.1 hr
    obtain ⟨c, h3, e3, hr⟩ := M.bind_ok_iff.1 hr
    obtain ⟨d, h4, e4, hr⟩ := M.bind_ok_iff.1 hr
    simp only [Instr.Safe, Bool.and_eq_true, decide_eq_true_eq]
    exact ⟨⟨⟨regGet_ok e1, regGet_ok e2⟩, regGet_ok e3⟩, regGet_ok e4⟩
  | constr e k =>
    obtain ⟨x, h1, e1, hr⟩ := M.bind_ok_iff.1 hr
    exact decide_eq_true (regGet_ok e1)
  | metric e =>
    obtain ⟨x, h1, e1, hr⟩ := M.bind_ok_iff.1 hr
    exact decide_eq_true (regGet_ok e1)
  | objective e => rfl

/-- what a program guarantees -/
structure ProgRes (C : CAS) (prog : List Instr) (r : Regs) (h : Heap) (r' : Regs) (h' : Heap) : Prop where
  ext : Ext C h h'
  inv : Inv C r' h'
  decl : r.decl <+: r'.decl
  sim : ∀ (E : Type) [NormedAddCommGroup E] [InnerProductSpace ℝ E] (SR : ℕ → E → E → ℝ → Prop) (env) (φ : PtId → E) (ψ)
    (D : List FnId) (rr rr' : RRegs E), r'.decl <+: D → D.Nodup → h'.Functional (SRel D SR) →
    SimRegs D env φ ψ r h rr → h.TrueSamples (SRel D SR) env φ ψ → Exec SR env prog rr rr' →
    ∃ φ' ψ', h.Agree φ φ' ψ ψ' ∧ SimRegs D env φ' ψ' r' h' rr' ∧ h'.TrueSamples (SRel D SR) env φ' ψ'

variable (hC : C.Lawful)
include hC

theorem prog_safe (prog : List Instr) : ∀ {r : Regs} {h : Heap}, Inv C r h → SafeProg prog r.counts = true →
    ∃ r' h', runProg C prog r h = .ok (r', h') := by
  induction prog with
  | nil => intro r h _ _; exact ⟨r, h, rfl⟩
  | cons ins prog ih =>
    intro r h i hs
    simp only [SafeProg, Bool.and_eq_true] at hs
    obtain ⟨r1, h1, e1, s1⟩ := step_all hC i ins hs.1
    obtain ⟨r2, h2, e2⟩ := ih s1.inv (by rw [s1.counts]; exact hs.2)
    exact ⟨r2, h2, by rw [runProg, M.bind_of_ok e1, e2]⟩

theorem prog_all (prog : List Instr) : ∀ {r r' : Regs} {h h' : Heap}, Inv C r h → runProg C prog r h = .ok (r', h') →
    ProgRes C prog r h r' h' := by
  induction prog with
  | nil =>
    intro r r' h h' i hr
    obtain ⟨rfl, rfl⟩ : r = r' ∧ h = h' := by simpa [runProg, pure, M.pure] using hr
    refine ⟨Ext.refl h, i, List.prefix_rfl, ?_⟩
    intro E _ _ SR env φ ψ D rr rr' hD hn hF s ht ex
    cases ex
    exact ⟨φ, ψ, Agree.refl _ _ _, s, ht⟩
  | cons ins prog ih =>
    intro r r' h h' i hr
    rw [runProg] at hr
    obtain ⟨r1, h1, e1, hr⟩ := M.bind_ok_iff.1 hr
    obtain ⟨r1', h1', e1', s1⟩ := step_all hC i ins (Instr.safe_of_ok e1)
    rw [e1] at e1'; cases e1'
    have p := ih s1.inv hr
    refine ⟨s1.ext.trans p.ext, p.inv, s1.decl.trans p.decl, ?_⟩
    intro E _ _ SR env φ ψ D rr rr' hD hn hF s ht ex
    cases ex with
    | cons st ex =>
    obtain ⟨φ1, ψ1, a1, s1', t1⟩ := s1.sim E SR env φ ψ D rr _ (p.decl.trans hD) hn (hF.anti p.ext) s ht st
    obtain ⟨φ2, ψ2, a2, s2, t2⟩ := p.sim E SR env φ1 ψ1 D _ rr' hD hn hF s1' t1 ex
    exact ⟨φ2, ψ2, a1.trans s1.ext a2, s2, t2⟩

omit hC in
theorem inv_reset (h : Heap) : Inv C Regs.empty h.reset :=
  ⟨wf_reset h, by simp [Regs.empty], by simp [Regs.empty], by simp [Regs.empty], rfl, by simp [Regs.empty], by simp [Regs.empty]⟩

end Verif
