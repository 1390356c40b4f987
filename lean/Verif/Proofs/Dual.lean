import Verif.Spec.Dual
import Verif.Props.Problem
import Verif.Proofs.Cholesky

/-!
# Weak duality
-/

namespace Verif
open Heap
open scoped InnerProductSpace

variable {C : CAS} {h h0 h' : Heap} {r : Regs} {prog : List Instr} {sm : SymMats}

theorem FG.val_sum {env : Name → ℝ} {dimF dimG : ℕ} {Fv : ℕ → ℝ} {Gm : ℕ → ℕ → ℝ} (mult : SpKey → ℝ) (ents : List (SpKey × FG)) :
    ∑ k ∈ Finset.range dimF, (ents.map fun en => mult en.1 * (en.2.F k).eval env).sum * Fv k +
    ∑ i ∈ Finset.range dimG, ∑ j ∈ Finset.range dimG, (ents.map fun en => mult en.1 * (en.2.G i j).eval env).sum * Gm i j =
    (ents.map fun en => mult en.1 * en.2.val env dimF dimG Fv Gm).sum := by
  induction ents with
  | nil => simp
  | cons en ents ih =>
    rw [List.map_cons, List.sum_cons, ← ih]
    simp only [List.map_cons, List.sum_cons, add_mul, Finset.sum_add_distrib, FG.val, mul_add, Finset.mul_sum, mul_assoc]
    ring

theorem DualFeasible.split {ents : List (SpKey × FG)} {obj : FG} (hs : sm.spExp = ents ++ [(SpKey.obj, obj)]) (hn : (Dict.keys sm.spExp).Nodup) :
    (sm.spExp.filter fun en => en.1 ≠ .obj) = ents ∧ sm.spExp.get? .obj = some obj := by
  rw [hs, Dict.keys_append] at hn
  have hno : ∀ en ∈ ents, en.1 ≠ SpKey.obj := fun en hen hh =>
    (List.nodup_append.1 hn).2.2 en.1 (List.mem_map_of_mem hen) .obj (by simp) hh
  refine ⟨?_, ?_⟩
  · rw [hs, List.filter_append]
    have : List.filter (fun en : SpKey × FG => decide (en.1 ≠ .obj)) [(SpKey.obj, obj)] = [] := by simp
    rw [this, List.append_nil, List.filter_eq_self]
    intro en hen; simpa using hno en hen
  · rw [hs, Dict.get?, List.find?_append]
    have : List.find? (fun kv : SpKey × FG => decide (kv.1 = SpKey.obj)) ents = none := by
      rw [List.find?_eq_none]; intro kv hkv; simpa using hno kv hkv
    rw [this]; simp

/-- the metric is the weighted sum of the constraints minus the semidefinite part -/
theorem dual_identity {dimG dimF : ℕ} {env : Name → ℝ} {mult : SpKey → ℝ} {Z : ℕ → ℕ → ℝ} (d : DualFeasible sm dimG dimF env mult Z)
    {ents : List (SpKey × FG)} {obj : FG} (hs : sm.spExp = ents ++ [(SpKey.obj, obj)]) (hn : (Dict.keys sm.spExp).Nodup)
    (Fv : ℕ → ℝ) (Gm : ℕ → ℕ → ℝ) :
    obj.val env dimF dimG Fv Gm = (ents.map fun en => mult en.1 * en.2.val env dimF dimG Fv Gm).sum -
      ∑ i ∈ Finset.range dimG, ∑ j ∈ Finset.range dimG, Z i j * Gm i j := by
  obtain ⟨h1, h2⟩ := DualFeasible.split hs hn
  have hF : ∀ k < dimF, (obj.F k).eval env = (ents.map fun en => mult en.1 * (en.2.F k).eval env).sum := by
    intro k hk
    have := d.F k hk
    rw [SymMats.dualF, h1, SymMats.objF, h2] at this
    simp only at this
    linarith
  have hG : ∀ i < dimG, ∀ j < dimG, (obj.G i j).eval env = (ents.map fun en => mult en.1 * (en.2.G i j).eval env).sum - Z i j := by
    intro i hi j hj
    have := d.G i hi j hj
    rw [SymMats.dualG, h1, SymMats.objG, h2] at this
    simp only at this
    linarith
  rw [← FG.val_sum, FG.val]
  have e1 : ∑ k ∈ Finset.range dimF, (obj.F k).eval env * Fv k =
      ∑ k ∈ Finset.range dimF, (ents.map fun en => mult en.1 * (en.2.F k).eval env).sum * Fv k :=
    Finset.sum_congr rfl fun k hk => by rw [hF k (Finset.mem_range.1 hk)]
  have e2 : ∑ i ∈ Finset.range dimG, ∑ j ∈ Finset.range dimG, (obj.G i j).eval env * Gm i j =
      ∑ i ∈ Finset.range dimG, ∑ j ∈ Finset.range dimG, (ents.map fun en => mult en.1 * (en.2.G i j).eval env).sum * Gm i j -
      ∑ i ∈ Finset.range dimG, ∑ j ∈ Finset.range dimG, Z i j * Gm i j := by
    rw [← Finset.sum_sub_distrib]
    refine Finset.sum_congr rfl fun i hi => ?_
    rw [← Finset.sum_sub_distrib]
    exact Finset.sum_congr rfl fun j hj => by rw [hG i (Finset.mem_range.1 hi) j (Finset.mem_range.1 hj)]; ring
  rw [e1, e2]; ring

theorem list_sum_nonpos {l : List ℝ} (h : ∀ x ∈ l, x ≤ 0) : l.sum ≤ 0 := by
  induction l with
  | nil => simp
  | cons a l ih =>
    rw [List.sum_cons]
    have := h a (by simp)
    have := ih fun x hx => h x (by simp [hx])
    linarith

theorem mem_ineqCons {cons : List (ExId × Kind)} {i : ℕ} {e : ExId} (h : (ineqCons cons)[i]? = some e) : (e, Kind.inequality) ∈ cons := by
  have := List.mem_of_getElem? h
  rw [ineqCons, List.mem_map] at this
  obtain ⟨⟨e', k⟩, h1, rfl⟩ := this
  rw [List.mem_filter] at h1
  have : k = .inequality := by simpa using h1.2
  subst this; exact h1.1

theorem mem_eqCons {cons : List (ExId × Kind)} {i : ℕ} {e : ExId} (h : (eqCons cons)[i]? = some e) : (e, Kind.equality) ∈ cons := by
  have := List.mem_of_getElem? h
  rw [eqCons, List.mem_map] at this
  obtain ⟨⟨e', k⟩, h1, rfl⟩ := this
  rw [List.mem_filter] at h1
  have : k = .equality := by simpa using h1.2
  subst this; exact h1.1

theorem RRegs.violation_nonneg {E : Type} (rr : RRegs E) : 0 ≤ rr.violation := by
  refine List.sum_nonneg fun x hx => ?_
  obtain ⟨⟨c, k⟩, -, rfl⟩ := List.mem_map.1 hx
  cases k with
  | inequality => exact le_max_right _ _
  | equality => exact abs_nonneg _

theorem RRegs.le_violation {E : Type} {rr : RRegs E} : ∀ c ∈ rr.cons, (match c.2 with
    | .inequality => max c.1 0
    | .equality => |c.1|) ≤ rr.violation := by
  intro c h
  refine List.single_le_sum ?_ _ (List.mem_map.2 ⟨_, h, rfl⟩)
  intro x hx
  obtain ⟨⟨c, k⟩, -, rfl⟩ := List.mem_map.1 hx
  cases k with
  | inequality => exact le_max_right _ _
  | equality => exact abs_nonneg _

theorem RRegs.ConsHold.violation {E : Type} {rr : RRegs E} (h : rr.ConsHold) : rr.violation = 0 := by
  refine List.sum_eq_zero fun x hx => ?_
  obtain ⟨⟨c, k⟩, hc, rfl⟩ := List.mem_map.1 hx
  have := h _ hc
  cases k with
  | inequality => exact max_eq_right this
  | equality => rw [show c = 0 from this]; exact abs_zero

theorem list_sum_le {α : Type} {l : List α} {f g : α → ℝ} {K : ℝ} (h : ∀ x ∈ l, f x ≤ g x * K) : (l.map f).sum ≤ (l.map g).sum * K := by
  induction l with
  | nil => simp
  | cons a l ih =>
    rw [List.map_cons, List.map_cons, List.sum_cons, List.sum_cons, add_mul]
    exact add_le_add (h a (by simp)) (ih fun x hx => h x (by simp [hx]))

/-- duality with violated constraints: the metric is at most the violation times the sum of the multipliers -/
theorem slack_duality (hC : C.Lawful) (hr : runProblem C prog h0 = .ok (r, h)) (t : Translates C h r sm h') {V : Set Name} (hc : h'.Clean V)
    (hok : ∀ d ∈ decls prog, d.Ok) {env : Name → ℝ} {mult : SpKey → ℝ} {Z : ℕ → ℕ → ℝ}
    (d : DualFeasible sm h.ptCounter h.exCounter env mult Z) (hZ : IsPSD h.ptCounter Z)
    {E : Type} [NormedAddCommGroup E] [InnerProductSpace ℝ E] {fs : ℕ → CFun E} (hf : Instance prog fs) {rr : RRegs E}
    (ex : RealExec fs env prog rr) {v : ℝ} (hv : rr.metric = some v) : v ≤ (sm.spExp.map fun en => |mult en.1|).sum * rr.violation := by
  obtain ⟨φ, ψ, -, -, hcs, hmet, hsam⟩ := C32_represent hC hr fs hf env ex
  have inv := reached_inv hC hr
  have hl := decl_eq_leafFnIds inv
  obtain ⟨ents, obj, hs, -⟩ := t.sum
  have hn : (Dict.keys sm.spExp).Nodup := by rw [t.keys]; exact nodup_expectedKeys _ _
  have hval : ∀ {e m}, MatOf h' e m → m.val env h.exCounter h.ptCounter (h'.fvec ψ) (h'.gram φ) = h'.exVal env φ ψ e := by
    intro e m hm
    have := hm.val env φ ψ
    rw [exConst_of_clean hc, add_zero, t.grow.exCounter, t.grow.ptCounter] at this
    exact this
  have hid := dual_identity d hs hn (h'.fvec ψ) (h'.gram φ)
  -- the metric
  have hobj : obj.val env h.exCounter h.ptCounter (h'.fvec ψ) (h'.gram φ) = v := by
    have := t.entries (.obj, obj) (by rw [hs]; simp)
    simp only at this
    cases this with
    | obj he hm =>
      rw [hval hm, t.grow.exVal (inv.metric _ (by simp [he])).isEx]
      rw [he, hv] at hmet
      simpa using hmet
  rw [← hobj, hid]
  have hpsd : 0 ≤ ∑ i ∈ Finset.range h.ptCounter, ∑ j ∈ Finset.range h.ptCounter, Z i j * h'.gram φ i j :=
    hZ.gram_nonneg fun i => φ (h'.leafPts.getD i 0)
  have hcv : ∀ (e : ExId) (k : Kind), (e, k) ∈ r.cons → (h'.exVal env φ ψ e, k) ∈ rr.cons := by
    intro e k hk
    rw [t.grow.exVal (inv.cons _ hk).isEx, ← hcs]
    exact List.mem_map.2 ⟨(e, k), hk, rfl⟩
  have hents : (ents.map fun en => mult en.1 * en.2.val env h.exCounter h.ptCounter (h'.fvec ψ) (h'.gram φ)).sum ≤
      (ents.map fun en => |mult en.1|).sum * rr.violation := by
    apply list_sum_le
    rintro ⟨key, m⟩ hen
    have hmem : (key, m) ∈ sm.spExp := by rw [hs]; exact List.mem_append_left _ hen
    have hkey : key ∈ Dict.keys sm.spExp := List.mem_map_of_mem hmem
    have ent := t.entries _ hmem
    simp only at ent ⊢
    cases ent with
    | ineq hi hm =>
      have h1 := RRegs.le_violation _ (hcv _ _ (mem_ineqCons hi))
      simp only at h1
      rw [hval hm, abs_of_nonneg (d.nonneg _ _ _ hkey)]
      exact mul_le_mul_of_nonneg_left ((le_max_left _ _).trans h1) (d.nonneg _ _ _ hkey)
    | @pair k f i j o ti tj e m hf' ho hij hi hj hcc he hm =>
      rw [hval hm, he.val]
      refine (mul_nonpos_of_nonneg_of_nonpos (d.nonneg _ _ _ hkey) ?_).trans (mul_nonneg (abs_nonneg _) rr.violation_nonneg)
      rw [hl] at hf'
      obtain ⟨hlen, hcls⟩ := C32_classes hC hr
      have hk := (List.getElem?_eq_some_iff.1 hf').1
      have hdk : (decls prog)[k]? = some (decls prog)[k] := List.getElem?_eq_getElem (by omega)
      obtain ⟨o0, ho0, -, hc0, -⟩ := hcls k f _ hf' hdk
      obtain ⟨es, -, hes⟩ := t.classCons f (by rw [hl]; exact List.mem_of_getElem? hf') o0 ho0
      rw [hes] at ho
      injection ho with ho
      subst ho
      simp only at hi hj he ⊢
      rw [hc0]
      have ls := fun (t' : Triplet) (ht : t' ∈ o0.points) => hsam k f o0 hf' ho0 t' ht
      have live : ∀ t' ∈ o0.points, h.TripletLive t' := by
        obtain ⟨o1, ho1, hok1⟩ := inv.wf.fn f (by
          have := List.mem_of_getElem? hf'
          rw [← hl] at this
          exact (List.mem_filter.1 this).1)
        rw [ho0] at ho1; cases ho1
        exact hok1.points
      have li := live ti (List.mem_of_getElem? hi)
      have lj := live tj (List.mem_of_getElem? hj)
      rw [t.grow.ptVal li.1.isPt, t.grow.ptVal li.2.1.isPt, t.grow.exVal li.2.2.isEx, t.grow.ptVal lj.1.isPt, t.grow.ptVal lj.2.1.isPt,
        t.grow.exVal lj.2.2.isEx]
      exact lhs_nonpos (hok _ (List.getElem_mem _)) (hf k _ hdk) (ls ti (List.mem_of_getElem? hi)) (ls tj (List.mem_of_getElem? hj))
    | eq hi hm =>
      have h1 := RRegs.le_violation _ (hcv _ _ (mem_eqCons hi))
      simp only at h1
      rw [hval hm]
      exact (le_abs_self _).trans (by rw [abs_mul]; exact mul_le_mul_of_nonneg_left h1 (abs_nonneg _))
    | obj he hm =>
      exfalso
      have := (DualFeasible.split hs hn).1
      rw [← this, List.mem_filter] at hen
      simp at hen
  have h0 : 0 ≤ |mult SpKey.obj| * rr.violation := mul_nonneg (abs_nonneg _) rr.violation_nonneg
  rw [hs, List.map_append, List.sum_append, add_mul]
  simp only [List.map_cons, List.map_nil, List.sum_cons, List.sum_nil, add_zero]
  linarith

/-- weak duality: a dual feasible point bounds the metric of every execution -/
theorem weak_duality (hC : C.Lawful) (hr : runProblem C prog h0 = .ok (r, h)) (t : Translates C h r sm h') {V : Set Name} (hc : h'.Clean V)
    (hok : ∀ d ∈ decls prog, d.Ok) {env : Name → ℝ} {mult : SpKey → ℝ} {Z : ℕ → ℕ → ℝ}
    (d : DualFeasible sm h.ptCounter h.exCounter env mult Z) (hZ : IsPSD h.ptCounter Z)
    {E : Type} [NormedAddCommGroup E] [InnerProductSpace ℝ E] {fs : ℕ → CFun E} (hf : Instance prog fs) {rr : RRegs E}
    (ex : RealExec fs env prog rr) (hcons : rr.ConsHold) {v : ℝ} (hv : rr.metric = some v) : v ≤ 0 := by
  have := slack_duality hC hr t hc hok d hZ hf ex hv
  rwa [hcons.violation, mul_zero] at this

end Verif
