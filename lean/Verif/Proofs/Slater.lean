import Verif.Proofs.CallPts
import Verif.Proofs.CircuitSem
import Verif.Props.Complete
import Verif.Props.Total

/-!
# Strict feasibility from an execution with strict functions
-/

namespace Verif
open Heap
open scoped InnerProductSpace

variable {C : CAS} {h h0 h' : Heap} {r : Regs} {prog : List Instr} {sm : SymMats} {params : List Name}

section
variable {E : Type} [NormedAddCommGroup E] [InnerProductSpace ℝ E]

/-- the inequalities of the class hold strictly between samples at different points -/
def CFun.StrictIn (F : CFun E) (cls : FnClass) : Prop :=
  ∀ x g v y g' v', F.Sample x g v → F.Sample y g' v' → x ≠ y → cls.lhs x g v y g' v' < 0

/-- the registers after a program -/
def countsAfter : List Instr → Counts → Counts
  | [], n => n
  | i :: is, n => countsAfter is (i.next n)

theorem np_le_next (i : Instr) (n : Counts) : n.np ≤ (i.next n).np := by cases i <;> simp [Instr.next]

theorem np_le_after (prog : List Instr) : ∀ n : Counts, n.np ≤ (countsAfter prog n).np := by
  induction prog with
  | nil => intro n; exact le_refl _
  | cons i is ih => intro n; exact (np_le_next i n).trans (ih _)

theorem calls_lt (k : ℕ) (prog : List Instr) : ∀ {bs : List Bool} {n : Counts}, SafeProg prog n = true →
    ∀ x ∈ callsFrom k bs n prog, x < (countsAfter prog n).np := by
  induction prog with
  | nil => intro bs n _ x hx; simp [callsFrom] at hx
  | cons i is ih =>
    intro bs n hs x hx
    simp only [SafeProg, Bool.and_eq_true] at hs
    rw [callsFrom, List.mem_append] at hx
    rcases hx with hx | hx
    · refine lt_of_lt_of_le ?_ (np_le_after is (i.next n))
      cases i <;> simp only [Instr.callsOf] at hx <;> (try split at hx) <;>
        simp_all [Instr.next, Instr.Safe] <;> omega
    · exact ih hs.2 x hx

theorem exec_of_meets_pts {V : Vals E} {env : Name → ℝ} {SR : ℕ → E → E → ℝ → Prop} : ∀ (prog : List Instr) {n : Counts} {nd : ℕ}
    {cs : List (ℝ × Kind)} {m : Option ℕ}, SafeProg prog n = true → MeetsAll SR env V prog n nd → ∀ {rr : RRegs E}, Agree V rr n nd cs m →
    ∃ rr', Exec SR env prog rr rr' ∧ rr'.cons = cs ++ consVals V prog ∧ rr'.pts = (List.range (countsAfter prog n).np).map V.pt
  | [], n, nd, cs, m, _, _, rr, ha => ⟨rr, .nil _, by simp [ha.cons, consVals], ha.pts⟩
  | i :: is, n, nd, cs, m, hs, hm, rr, ha => by
    simp only [SafeProg, Bool.and_eq_true] at hs
    obtain ⟨rr1, h1, a1⟩ := step_of_meets hs.1 hm.1 ha
    obtain ⟨rr2, h2, c2, p2⟩ := exec_of_meets_pts is hs.2 hm.2 a1
    exact ⟨rr2, .cons h1 h2, by rw [c2, consVals_cons i is, List.append_assoc], p2⟩

theorem gram_psd (n : ℕ) (v : ℕ → E) : IsPSD n fun i j => ⟪v i, v j⟫_ℝ := by
  refine ⟨fun i _ j _ => real_inner_comm _ _, fun u => ?_⟩
  have : ∑ i ∈ Finset.range n, ∑ j ∈ Finset.range n, ⟪v i, v j⟫_ℝ * u i * u j = ‖∑ i ∈ Finset.range n, u i • v i‖ ^ 2 := by
    rw [← real_inner_self_eq_norm_sq, sum_inner]
    refine Finset.sum_congr rfl fun i _ => ?_
    rw [inner_sum]
    refine Finset.sum_congr rfl fun j _ => ?_
    rw [real_inner_smul_left, real_inner_smul_right]; ring
  rw [this]; positivity

/-- the calls of every declared function are at different points -/
def Distinct (prog : List Instr) (rr : RRegs E) : Prop := ∀ k < (decls prog).length, (∀ n ∈ calls k prog, n < rr.pts.length) ∧
  ((calls k prog).map fun n => rr.pts.getD n 0).Nodup

theorem samples_nodup (hC : C.Lawful) (hr : runProblem C prog h0 = .ok (r, h)) (hst : Standard prog = true) {env : Name → ℝ} {rr : RRegs E}
    (hdist : Distinct prog rr) {φ : PtId → E} (hp : r.pts.map (h.ptVal env φ) = rr.pts) {k : ℕ} {f : FnId} {o : FnObj}
    (hk : r.decl[k]? = some f) (ho : h.fns[f]? = some o) : (o.points.map fun t => h.ptVal env φ t.1).Nodup := by
  have hlen := (C32_classes hC hr).1
  obtain ⟨h1, h2⟩ := hdist k (by rw [← hlen]; exact (List.getElem?_eq_some_iff.1 hk).1)
  have hs := (called_problem hC hst hr hk ho).map (h.ptVal env φ)
  rw [List.map_map, List.map_map] at hs
  refine hs.nodup ?_
  have : (calls k prog).map (h.ptVal env φ ∘ fun n => r.pts.getD n 0) = (calls k prog).map fun n => rr.pts.getD n 0 := by
    refine List.map_congr_left fun n hn => ?_
    have := h1 n hn
    rw [← hp] at this ⊢
    rw [List.length_map] at this
    simp [List.getD, this]
  rw [this]
  exact h2

theorem nodup_of_calls (hC : C.Lawful) (hr : runProblem C prog h0 = .ok (r, h)) (hst : Standard prog = true) {fs : ℕ → CFun E} (hf : Instance prog fs)
    {env : Name → ℝ} {rr : RRegs E} (ex : RealExec fs env prog rr) (hdist : Distinct prog rr) :
    ∀ f ∈ r.decl, ∀ o, h.fns[f]? = some o → o.points.Nodup := by
  intro f hfm o ho
  obtain ⟨k, hk⟩ := List.getElem?_of_mem hfm
  obtain ⟨φ, ψ, hp, -⟩ := C32_represent hC hr fs hf env ex
  exact (samples_nodup hC hr hst hdist hp hk ho).of_map

/-- an execution with strict functions, whose samples are at different points, in which the extra constraints are strict inequalities -/
theorem strict_of_nodup (hC : C.Lawful) (hr : runProblem C prog h0 = .ok (r, h)) (t : Translates C h r sm h') {V : Set Name} (hc : h'.Clean V)
    {fs : ℕ → CFun E} (hf : Instance prog fs) (hstrict : ∀ k d, (decls prog)[k]? = some d → (fs k).StrictIn d.cls)
    {env : Name → ℝ} {rr : RRegs E} (ex : RealExec fs env prog rr)
    (hdist : ∀ φ : PtId → E, r.pts.map (h.ptVal env φ) = rr.pts → ∀ (k : ℕ) (f : FnId) (o : FnObj), r.decl[k]? = some f → h.fns[f]? = some o →
      (o.points.map fun t => h.ptVal env φ t.1).Nodup)
    (hcons : ∀ c ∈ rr.cons, c.2 = .inequality ∧ c.1 < 0) : StrictlyFeasible sm h.ptCounter h.exCounter env := by
  have inv := reached_inv hC hr
  have hl := decl_eq_leafFnIds inv
  obtain ⟨φ, ψ, hp, -, hcs, -, hsm⟩ := C32_represent hC hr fs hf env ex
  have hval : ∀ {e m}, MatOf h' e m → m.val env h.exCounter h.ptCounter (h.fvec ψ) (h.gram φ) = h'.exVal env φ ψ e := by
    intro e m hm
    have := hm.val env φ ψ
    rw [exConst_of_clean hc, add_zero, t.grow.exCounter, t.grow.ptCounter] at this
    rw [← this, FG.val, FG.val]
    congr 1
    · refine Finset.sum_congr rfl fun k _ => ?_
      rw [Heap.fvec, Heap.fvec, t.grow.leafExs]
    · refine Finset.sum_congr rfl fun i _ => Finset.sum_congr rfl fun j _ => ?_
      rw [Heap.gram, Heap.gram, t.grow.leafPts]
  refine ⟨h.fvec ψ, h.gram φ, gram_psd _ fun i => φ (h.leafPts.getD i 0), ?_⟩
  rintro ⟨key, m⟩ hen hne
  right
  have ent := t.entries _ hen
  simp only at ent ⊢
  cases ent with
  | @ineq i e m hi hm =>
    refine ⟨⟨_, _, _, rfl⟩, ?_⟩
    have hmem := List.mem_of_getElem? hi
    obtain ⟨⟨e', kd⟩, h1, rfl⟩ := List.mem_map.1 hmem
    have h2 := (List.mem_filter.1 h1).1
    rw [hval hm, t.grow.exVal (inv.cons _ h2).isEx]
    refine (hcons (h.exVal env φ ψ e', kd) ?_).2
    rw [← hcs]
    exact List.mem_map.2 ⟨_, h2, rfl⟩
  | @pair k f i j o ti tj e m hf' ho' hij hi hj hcc he hm =>
    refine ⟨⟨_, _, _, rfl⟩, ?_⟩
    have hfd : f ∈ r.decl := by rw [← hl]; exact List.mem_of_getElem? hf'
    rw [hl] at hf'
    have hlen := (C32_classes hC hr).1
    have hkl := (List.getElem?_eq_some_iff.1 hf').1
    obtain ⟨d, hd⟩ : ∃ d, (decls prog)[k]? = some d := ⟨_, List.getElem?_eq_getElem (by rw [← hlen]; exact hkl)⟩
    obtain ⟨o1, ho1, -, hcls, -⟩ := (C32_classes hC hr).2 k f d hf' hd
    obtain ⟨es, -, hes⟩ := t.classCons f (by rw [hl]; exact hfd) o1 ho1
    rw [hes] at ho'
    injection ho' with ho'
    subst ho'
    simp only at hi hj he
    obtain ⟨o2, ho2, hok⟩ := inv.wf.fn f (by
      rw [← hl] at hfd
      exact (List.mem_filter.1 hfd).1)
    rw [ho1] at ho2
    cases ho2
    have li := hok.points ti (List.mem_of_getElem? hi)
    have lj := hok.points tj (List.mem_of_getElem? hj)
    rw [hval hm, he.val, t.grow.ptVal li.1.isPt, t.grow.ptVal li.2.1.isPt, t.grow.exVal li.2.2.isEx, t.grow.ptVal lj.1.isPt, t.grow.ptVal lj.2.1.isPt,
        t.grow.exVal lj.2.2.isEx, hcls]
    refine hstrict k d hd _ _ _ _ _ _ (hsm k f o1 hf' ho1 ti (List.mem_of_getElem? hi)) (hsm k f o1 hf' ho1 tj (List.mem_of_getElem? hj)) ?_
    intro heq
    have hn := hdist φ hp _ _ _ hf' ho1
    have h1 : (o1.points.map fun t => h.ptVal env φ t.1)[i]? = (o1.points.map fun t => h.ptVal env φ t.1)[j]? := by
      rw [List.getElem?_map, List.getElem?_map, hi, hj]; simp [heq]
    exact hij ((List.getElem?_inj (by rw [List.length_map]; exact (List.getElem?_eq_some_iff.1 hi).1) hn).1 h1)
  | @eq i e m hi hm =>
    exfalso
    have hmem := List.mem_of_getElem? hi
    obtain ⟨⟨e', kd⟩, h1, rfl⟩ := List.mem_map.1 hmem
    have h2 := List.mem_filter.1 h1
    have h3 := (hcons (h.exVal env φ ψ e', kd) (by rw [← hcs]; exact List.mem_map.2 ⟨_, h2.1, rfl⟩)).1
    have h4 := h2.2
    simp only at h3 h4
    subst h3
    simp at h4
  | obj => exact absurd rfl hne

/-- an execution with strict functions, evaluated at different points, in which the extra constraints are strict inequalities -/
theorem strict_of_exec (hC : C.Lawful) (hr : runProblem C prog h0 = .ok (r, h)) (t : Translates C h r sm h') {V : Set Name} (hc : h'.Clean V)
    (hst : Standard prog = true) {fs : ℕ → CFun E} (hf : Instance prog fs) (hstrict : ∀ k d, (decls prog)[k]? = some d → (fs k).StrictIn d.cls)
    {env : Name → ℝ} {rr : RRegs E} (ex : RealExec fs env prog rr) (hdist : Distinct prog rr)
    (hcons : ∀ c ∈ rr.cons, c.2 = .inequality ∧ c.1 < 0) : StrictlyFeasible sm h.ptCounter h.exCounter env :=
  strict_of_nodup hC hr t hc hf hstrict ex (fun _ hp _ _ _ hk ho => samples_nodup hC hr hst hdist hp hk ho) hcons

end

end Verif
