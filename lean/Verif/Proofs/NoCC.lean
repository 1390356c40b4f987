import Verif.Model.Problem
import Verif.Proofs.ProgramExpr

/-!
API programs never touch the lists of class constraints.
-/

namespace Verif
open Heap

/-- functions made after the `N`-th have no class constraints, and all functions of the problem were made after the `N`-th -/
structure NoCC (N : ℕ) (h : Heap) : Prop where
  le : N ≤ h.fns.length
  list : ∀ f ∈ h.fnList, N ≤ f
  cc : ∀ (f : ℕ) (o : FnObj), N ≤ f → h.fns[f]? = some o → o.classCons = []

variable {N : ℕ} {C : CAS}

/-- the computation adds no class constraint -/
def Quiet (N : ℕ) {α : Type} (x : M α) : Prop := ∀ h a h', NoCC N h → x h = .ok (a, h') → NoCC N h'

theorem Quiet.bind {α β : Type} {x : M α} {f : α → M β} (hx : Quiet N x) (hf : ∀ a, Quiet N (f a)) : Quiet N (x >>= f) := by
  intro h a h' hc hr
  obtain ⟨b, h1, e1, e2⟩ := M.bind_ok_iff.1 hr
  exact hf b _ _ _ (hx _ _ _ hc e1) e2

theorem Quiet.pure {α : Type} (a : α) : Quiet N (Pure.pure a : M α) := by
  intro h b h' hc hr
  simp only [M.pure_run, Except.ok.injEq, Prod.mk.injEq] at hr
  rw [← hr.2]; exact hc

theorem Quiet.throw {α : Type} (e : Err) : Quiet N (M.throw e : M α) := by
  intro h b h' hc hr; simp at hr

theorem Quiet.assert (b : Bool) : Quiet N (M.assert b) := by
  unfold M.assert; split
  · exact Quiet.pure _
  · exact Quiet.throw _

theorem Quiet.ofOption {α : Type} (e : Err) (o : Option α) : Quiet N (M.ofOption e o) := by
  cases o
  · exact Quiet.throw _
  · exact Quiet.pure _

theorem Quiet.ite {α : Type} {c : Prop} [Decidable c] {x y : M α} (hx : Quiet N x) (hy : Quiet N y) : Quiet N (if c then x else y) := by
  split
  · exact hx
  · exact hy

theorem Quiet.getPt (p : PtId) : Quiet N (Verif.getPt p) := by
  intro h a h' hc hr
  unfold Verif.getPt at hr
  split at hr
  · simp only [Except.ok.injEq, Prod.mk.injEq] at hr; rw [← hr.2]; exact hc
  · simp at hr

theorem Quiet.getEx (p : ExId) : Quiet N (Verif.getEx p) := by
  intro h a h' hc hr
  unfold Verif.getEx at hr
  split at hr
  · simp only [Except.ok.injEq, Prod.mk.injEq] at hr; rw [← hr.2]; exact hc
  · simp at hr

theorem Quiet.getFn (p : FnId) : Quiet N (Verif.getFn p) := by
  intro h a h' hc hr
  unfold Verif.getFn at hr
  split at hr
  · simp only [Except.ok.injEq, Prod.mk.injEq] at hr; rw [← hr.2]; exact hc
  · simp at hr

theorem Quiet.getFn_bind {β : Type} (p : FnId) {f : FnObj → M β} (hf : ∀ o : FnObj, (N ≤ p → o.classCons = []) → Quiet N (f o)) :
    Quiet N (Verif.getFn p >>= f) := by
  intro h a h' hc hr
  obtain ⟨b, h1, e1, e2⟩ := M.bind_ok_iff.1 hr
  unfold Verif.getFn at e1
  split at e1
  · next o ho =>
    simp only [Except.ok.injEq, Prod.mk.injEq] at e1
    obtain ⟨rfl, rfl⟩ := e1
    exact hf _ (fun hp => hc.cc _ _ hp ho) _ _ _ hc e2
  · simp at e1

theorem Quiet.setFn (f : FnId) (o : FnObj) (ho : N ≤ f → o.classCons = []) : Quiet N (Verif.setFn f o) := by
  intro h a h' hc hr
  simp only [Verif.setFn, Except.ok.injEq, Prod.mk.injEq] at hr
  rw [← hr.2]
  refine ⟨by simpa using hc.le, hc.list, ?_⟩
  intro k ok hk hok
  simp only [List.getElem?_set] at hok
  split at hok
  · next heq =>
    split at hok
    · cases hok; exact ho (by rw [heq]; exact hk)
    · simp at hok
  · exact hc.cc _ _ hk hok

theorem Quiet.newPt (d : Dict PtId Sym) : Quiet N (Verif.newPt d) := by
  intro h a h' hc hr
  simp only [Verif.newPt, Except.ok.injEq, Prod.mk.injEq] at hr
  rw [← hr.2]; exact ⟨hc.le, hc.list, hc.cc⟩

theorem Quiet.newEx (d : Dict ExKey Sym) : Quiet N (Verif.newEx d) := by
  intro h a h' hc hr
  simp only [Verif.newEx, Except.ok.injEq, Prod.mk.injEq] at hr
  rw [← hr.2]; exact ⟨hc.le, hc.list, hc.cc⟩

theorem Quiet.newLeafPt : Quiet N Verif.newLeafPt := by
  intro h a h' hc hr
  simp only [Verif.newLeafPt, Except.ok.injEq, Prod.mk.injEq] at hr
  rw [← hr.2]; exact ⟨hc.le, hc.list, hc.cc⟩

theorem Quiet.newLeafEx : Quiet N Verif.newLeafEx := by
  intro h a h' hc hr
  simp only [Verif.newLeafEx, Except.ok.injEq, Prod.mk.injEq] at hr
  rw [← hr.2]; exact ⟨hc.le, hc.list, hc.cc⟩

theorem NoCC.push {h : Heap} (hc : NoCC N h) (o : FnObj) (ho : o.classCons = []) {h' : Heap} (h1 : h'.fns = h.fns ++ [o])
    (h2 : h'.fnList = h.fnList ++ [h.fns.length]) : NoCC N h' := by
  refine ⟨by rw [h1]; simp; have := hc.le; omega, ?_, ?_⟩
  · intro f hf
    rw [h2] at hf
    rcases List.mem_append.1 hf with hf | hf
    · exact hc.list f hf
    · rw [List.mem_singleton] at hf; rw [hf]; exact hc.le
  · intro f o' hf hfo
    rw [h1, List.getElem?_append] at hfo
    split at hfo
    · exact hc.cc _ _ hf hfo
    · rw [List.getElem?_singleton] at hfo
      split at hfo
      · cases hfo; exact ho
      · simp at hfo

theorem Quiet.newFn (d r) : Quiet N (Verif.newFn d r) := by
  intro h a h' hc hr
  simp only [Verif.newFn, Except.ok.injEq, Prod.mk.injEq] at hr
  rw [← hr.2]; exact hc.push _ rfl rfl rfl

theorem Quiet.newLeafFn (c r) : Quiet N (Verif.newLeafFn c r) := by
  intro h a h' hc hr
  simp only [Verif.newLeafFn, Except.ok.injEq, Prod.mk.injEq] at hr
  rw [← hr.2]; exact hc.push _ rfl rfl rfl

theorem Quiet.prunePt (p : PtId) : Quiet N (Verif.prunePt C p) := by
  intro h a h' hc hr
  unfold Verif.prunePt at hr
  split at hr
  · simp only [Except.ok.injEq, Prod.mk.injEq] at hr
    rw [← hr.2]; exact ⟨hc.le, hc.list, hc.cc⟩
  · simp at hr

theorem Quiet.pruneEx (p : ExId) : Quiet N (Verif.pruneEx C p) := by
  intro h a h' hc hr
  unfold Verif.pruneEx at hr
  split at hr
  · simp only [Except.ok.injEq, Prod.mk.injEq] at hr
    rw [← hr.2]; exact ⟨hc.le, hc.list, hc.cc⟩
  · simp at hr

theorem quiet_ptAdd (p q : PtId) : Quiet N (ptAdd C p q) :=
  (Quiet.getPt p).bind fun _ => (Quiet.getPt q).bind fun _ => Quiet.newPt _

theorem quiet_ptScale (s : Sym) (p : PtId) : Quiet N (ptScale C s p) :=
  (Quiet.getPt p).bind fun _ => Quiet.newPt _

theorem quiet_ptSub (p q : PtId) : Quiet N (ptSub C p q) := (quiet_ptScale _ q).bind fun _ => quiet_ptAdd p _

theorem quiet_ptDiv (p : PtId) (c : ℚ) : Quiet N (ptDiv C p c) := Quiet.ite (Quiet.throw _) (quiet_ptScale _ p)

theorem quiet_ptInner (p q : PtId) : Quiet N (ptInner C p q) :=
  (Quiet.getPt p).bind fun _ => (Quiet.getPt q).bind fun _ => Quiet.newEx _

theorem quiet_ptPow (p : PtId) (n : ℚ) : Quiet N (ptPow C p n) := (Quiet.assert _).bind fun _ => quiet_ptInner p p

theorem quiet_exAdd (p q : ExId) : Quiet N (exAdd C p q) :=
  (Quiet.getEx p).bind fun _ => (Quiet.getEx q).bind fun _ => Quiet.newEx _

theorem quiet_exAddNum (p : ExId) (c : ℚ) : Quiet N (exAddNum C p c) := (Quiet.getEx p).bind fun _ => Quiet.newEx _

theorem quiet_exScale (s : Sym) (p : ExId) : Quiet N (exScale C s p) := (Quiet.getEx p).bind fun _ => Quiet.newEx _

theorem quiet_exSub (p q : ExId) : Quiet N (exSub C p q) := (quiet_exScale _ q).bind fun _ => quiet_exAdd p _

theorem quiet_exDiv (p : ExId) (c : ℚ) : Quiet N (exDiv C p c) := Quiet.ite (Quiet.throw _) (quiet_exScale _ p)

theorem quiet_findTriplet (d : Dict PtId Sym) (l : List Triplet) : Quiet N (findTriplet C d l) := by
  induction l with
  | nil => exact Quiet.pure _
  | cons t l ih => exact (Quiet.getPt _).bind fun o => Quiet.ite (Quiet.pure _) ih

theorem quiet_isEvaluated (f : FnId) (x : PtId) : Quiet N (isEvaluated C f x) :=
  (Quiet.getFn _).bind fun _ => (Quiet.getPt _).bind fun _ => quiet_findTriplet _ _

theorem quiet_separateLoop (x : PtId) (l : List (FnId × ℚ)) : ∀ acc, Quiet N (separateLoop C x l acc) := by
  induction l with
  | nil => intro acc; exact Quiet.pure _
  | cons kw l ih =>
    intro acc
    refine (quiet_isEvaluated _ _).bind fun o => ?_
    cases o with
    | none => exact ih _
    | some _ => exact (Quiet.getFn _).bind fun fo => Quiet.ite (ih _) (ih _)

theorem quiet_separate (f : FnId) (x : PtId) : Quiet N (separate C f x) :=
  (Quiet.getFn _).bind fun _ => quiet_separateLoop _ _ _

theorem quiet_recordTriplet (f : FnId) (t : Triplet) : Quiet N (recordTriplet C f t) :=
  (Quiet.prunePt _).bind fun _ => (Quiet.prunePt _).bind fun _ => (Quiet.pruneEx _).bind fun _ => Quiet.getFn_bind _ fun _ ho =>
    (Quiet.setFn _ _ (by exact ho)).bind fun _ => (Quiet.getPt _).bind fun _ =>
      Quiet.ite (Quiet.getFn_bind _ fun _ ho => Quiet.setFn _ _ (by exact ho)) (Quiet.pure _)

structure QuietM (N : ℕ) (r : Methods) : Prop where
  oracle : ∀ f x, Quiet N (r.oracle f x)
  addPoint : ∀ f t, Quiet N (r.addPoint f t)

theorem quiet_addPointLoop {r : Methods} (hr : QuietM N r) (x : PtId) (n : ℕ) (l : List (FnId × ℚ)) :
    ∀ g v k, Quiet N (addPointLoop C r x n l g v k) := by
  induction l with
  | nil => intro g v k; exact Quiet.pure _
  | cons kw l ih =>
    intro g v k
    refine Quiet.ite ?_ ?_
    · exact (hr.oracle _ _).bind fun _ => (quiet_ptScale _ _).bind fun _ => (quiet_ptSub _ _).bind fun _ =>
        (quiet_exScale _ _).bind fun _ => (quiet_exSub _ _).bind fun _ => ih _ _ _
    · exact (quiet_ptDiv _ _).bind fun _ => (quiet_exDiv _ _).bind fun _ => (hr.addPoint _ _).bind fun _ => ih _ _ _

theorem quiet_addPointBody {r : Methods} (hr : QuietM N r) (f : FnId) (t : Triplet) : Quiet N (addPointBody C r f t) :=
  (quiet_recordTriplet _ _).bind fun _ => Quiet.getFn_bind _ fun _ ho => Quiet.ite (Quiet.pure _)
    ((Quiet.setFn _ _ (by exact ho)).bind fun _ => (quiet_separate _ _).bind fun _ => Quiet.ite (Quiet.pure _)
      ((Quiet.getFn _).bind fun _ => quiet_addPointLoop hr _ _ _ _ _ _))

theorem quiet_valueBody {r : Methods} (hr : QuietM N r) (f : FnId) (x : PtId) : Quiet N (valueBody C r f x) := by
  refine (quiet_isEvaluated _ _).bind fun o => ?_
  cases o with
  | none => exact (hr.oracle _ _).bind fun _ => Quiet.pure _
  | some _ => exact Quiet.pure _

theorem quiet_gradientBody {r : Methods} (hr : QuietM N r) (f : FnId) (x : PtId) : Quiet N (gradientBody r f x) :=
  (hr.oracle _ _).bind fun _ => Quiet.pure _

theorem quiet_sumValues {r : Methods} (hr : QuietM N r) (x : PtId) (l : List (FnId × ℚ)) : ∀ e, Quiet N (sumValues C r x l e) := by
  induction l with
  | nil => intro e; exact Quiet.pure _
  | cons kw l ih =>
    intro e
    exact (quiet_valueBody hr _ _).bind fun _ => (quiet_exScale _ _).bind fun _ => (quiet_exAdd _ _).bind fun _ => ih _

theorem quiet_sumGradients {r : Methods} (hr : QuietM N r) (x : PtId) (l : List (FnId × ℚ)) : ∀ e, Quiet N (sumGradients C r x l e) := by
  induction l with
  | nil => intro e; exact Quiet.pure _
  | cons kw l ih =>
    intro e
    exact (quiet_gradientBody hr _ _).bind fun _ => (quiet_ptScale _ _).bind fun _ => (quiet_ptAdd _ _).bind fun _ => ih _

theorem quiet_oracleFresh {r : Methods} (hr : QuietM N r) (f : FnId) (x : PtId) (a : Option (PtId × ExId)) :
    Quiet N (oracleFresh C r f x a) := by
  refine (quiet_separate _ _).bind fun nd => Quiet.bind ?_ fun v => Quiet.bind ?_ fun g => (hr.addPoint _ _).bind fun _ => Quiet.pure _
  · cases a with
    | some _ => exact Quiet.pure _
    | none =>
      exact Quiet.ite ((Quiet.newEx _).bind fun _ => (Quiet.getFn _).bind fun _ => quiet_sumValues hr _ _ _)
        Quiet.newLeafEx
  · exact Quiet.ite ((Quiet.newPt _).bind fun _ => (Quiet.getFn _).bind fun _ => quiet_sumGradients hr _ _ _)
      Quiet.newLeafPt

theorem quiet_oracleBody {r : Methods} (hr : QuietM N r) (f : FnId) (x : PtId) : Quiet N (oracleBody C r f x) := by
  refine (quiet_isEvaluated _ _).bind fun a => (Quiet.getFn _).bind fun fo => ?_
  cases a with
  | none => exact quiet_oracleFresh hr _ _ _
  | some gv => exact Quiet.ite (Quiet.pure _) (quiet_oracleFresh hr _ _ _)

theorem quiet_methods (n : ℕ) : QuietM N (methods C n) := by
  induction n with
  | zero => exact ⟨fun _ _ => Quiet.throw _, fun _ _ => Quiet.throw _⟩
  | succ n ih => exact ⟨quiet_oracleBody ih, quiet_addPointBody ih⟩

theorem quiet_PE (ps : List PtId) (a : PE) : Quiet N (a.run C ps) := by
  induction a with
  | reg i => exact Quiet.ofOption _ _
  | add a b iha ihb => exact iha.bind fun _ => ihb.bind fun _ => quiet_ptAdd _ _
  | sub a b iha ihb => exact iha.bind fun _ => ihb.bind fun _ => quiet_ptSub _ _
  | neg a iha => exact iha.bind fun _ => quiet_ptScale _ _
  | scale s a iha => exact iha.bind fun _ => quiet_ptScale _ _
  | div a c iha => exact iha.bind fun _ => quiet_ptDiv _ _

theorem quiet_EE (ps : List PtId) (es : List ExId) (a : EE) : Quiet N (a.run C ps es) := by
  induction a with
  | reg i => exact Quiet.ofOption _ _
  | inner a b => exact (quiet_PE ps a).bind fun _ => (quiet_PE ps b).bind fun _ => quiet_ptInner _ _
  | pow a n => exact (quiet_PE ps a).bind fun _ => quiet_ptPow _ _
  | add a b iha ihb => exact iha.bind fun _ => ihb.bind fun _ => quiet_exAdd _ _
  | sub a b iha ihb => exact iha.bind fun _ => ihb.bind fun _ => quiet_exSub _ _
  | neg a iha => exact iha.bind fun _ => quiet_exScale _ _
  | scale s a iha => exact iha.bind fun _ => quiet_exScale _ _
  | div a c iha => exact iha.bind fun _ => quiet_exDiv _ _
  | addNum a c iha => exact iha.bind fun _ => quiet_exAddNum _ _
  | subNum a c iha => exact iha.bind fun _ => quiet_exAddNum _ _
  | rsubNum c a iha => exact iha.bind fun _ => (quiet_exAddNum _ _).bind fun _ => quiet_exScale _ _

theorem quiet_FE (fs : List FnId) (a : FE) : Quiet N (a.run fs) := by
  have sc : ∀ c f, Quiet N (fnScale c f) := fun c f => (Quiet.getFn _).bind fun _ => Quiet.newFn _ _
  have ad : ∀ f g, Quiet N (fnAdd f g) := fun f g => (Quiet.getFn _).bind fun _ => (Quiet.getFn _).bind fun _ => Quiet.newFn _ _
  induction a with
  | reg i => exact Quiet.ofOption _ _
  | add a b iha ihb => exact iha.bind fun _ => ihb.bind fun _ => ad _ _
  | sub a b iha ihb => exact iha.bind fun _ => ihb.bind fun _ => (sc _ _).bind fun _ => ad _ _
  | neg a iha => exact iha.bind fun _ => sc _ _
  | scale s a iha => exact iha.bind fun _ => sc _ _
  | div a c iha => exact iha.bind fun _ => Quiet.ite (Quiet.throw _) (sc _ _)

theorem quiet_declare (d : FnDecl) : Quiet N (declareFunction d) := by
  match d with
  | .convex r => exact Quiet.newLeafFn _ _
  | .strongly mu r => exact Quiet.newLeafFn _ _
  | .smoothStrongly mu none => exact Quiet.throw _
  | .smoothStrongly mu (some L) => exact Quiet.newLeafFn _ _
  | .smoothConvex none => exact Quiet.throw _
  | .smoothConvex (some L) => exact Quiet.newLeafFn _ _

theorem quiet_instr (r : Regs) (i : Instr) : Quiet N (i.run C r) := by
  have km : QuietM N (methods C pyDepth) := quiet_methods _
  have rg : ∀ l i, Quiet N (regGet l i) := fun l i => Quiet.ofOption _ _
  cases i with
  | declare d => exact (quiet_declare d).bind fun _ => Quiet.pure _
  | fn a => exact (quiet_FE _ _).bind fun _ => Quiet.pure _
  | pt a => exact (quiet_PE _ a).bind fun _ => Quiet.pure _
  | ex a => exact (quiet_EE _ _ a).bind fun _ => Quiet.pure _
  | initial => exact Quiet.newLeafPt.bind fun _ => Quiet.pure _
  | stationary f =>
    refine (rg _ _).bind fun _ => Quiet.bind ?_ fun _ => Quiet.pure _
    exact Quiet.newLeafPt.bind fun _ => (Quiet.newPt _).bind fun _ => Quiet.newLeafEx.bind fun _ =>
      (km.addPoint _ _).bind fun _ => Quiet.pure _
  | oracle f x => exact (rg _ _).bind fun _ => (rg _ _).bind fun _ => (km.oracle _ _).bind fun _ => Quiet.pure _
  | gradient f x => exact (rg _ _).bind fun _ => (rg _ _).bind fun _ => (quiet_gradientBody km _ _).bind fun _ => Quiet.pure _
  | value f x => exact (rg _ _).bind fun _ => (rg _ _).bind fun _ => (quiet_valueBody km _ _).bind fun _ => Quiet.pure _
  | prox x0 f gamma =>
    refine (rg _ _).bind fun _ => (rg _ _).bind fun _ => Quiet.bind ?_ fun _ => Quiet.pure _
    exact Quiet.newLeafPt.bind fun _ => Quiet.newLeafEx.bind fun _ => (quiet_ptScale _ _).bind fun _ =>
      (quiet_ptSub _ _).bind fun _ => (km.addPoint _ _).bind fun _ => Quiet.pure _
  | conj g f =>
    refine (rg _ _).bind fun _ => (rg _ _).bind fun _ => Quiet.bind ?_ fun _ => Quiet.pure _
    exact Quiet.newLeafPt.bind fun _ => Quiet.newLeafEx.bind fun _ => (km.addPoint _ _).bind fun _ => Quiet.pure _
  | addPoint f x g v =>
    exact (rg _ _).bind fun _ => (rg _ _).bind fun _ => (rg _ _).bind fun _ => (rg _ _).bind fun _ => (km.addPoint _ _).bind fun _ =>
      Quiet.pure _
  | constr e k => exact (rg _ _).bind fun _ => Quiet.pure _
  | metric e => exact (rg _ _).bind fun _ => Quiet.pure _
  | objective e => exact Quiet.pure _

theorem quiet_prog (prog : List Instr) : ∀ r, Quiet N (runProg C prog r) := by
  induction prog with
  | nil => intro r; exact Quiet.pure _
  | cons i prog ih => intro r; exact (quiet_instr r i).bind fun r' => ih r'

theorem noCC_reset (h : Heap) : NoCC h.fns.length h.reset := by
  refine ⟨le_rfl, by simp [Heap.reset], ?_⟩
  intro f o hf ho
  have : h.fns[f]? = some o := ho
  rw [List.getElem?_eq_none hf] at this
  simp at this

/-- no function of a problem has class constraints before the problem is solved -/
theorem problem_noCC {prog : List Instr} {h0 h : Heap} {r : Regs} (hr : runProblem C prog h0 = .ok (r, h)) :
    ∀ f ∈ h.fnList, ∀ o, h.fns[f]? = some o → o.classCons = [] := by
  have := quiet_prog (C := C) (N := h0.fns.length) prog _ _ _ _ (noCC_reset h0) hr
  exact fun f hf o ho => this.cc f o (this.list f hf) ho

end Verif
