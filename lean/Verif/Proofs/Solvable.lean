import Verif.Props.Problem

/-!
# A problem that was translated without error had no sample recorded twice
-/

namespace Verif
open Heap

variable {C : CAS} {h h0 h' : Heap} {r : Regs} {prog : List Instr} {sm : SymMats}

/-- a computation that leaves the heap as it is -/
def ReadOnly {α : Type} (m : M α) : Prop := ∀ h a h', m h = .ok (a, h') → h' = h

theorem ReadOnly.pure {α : Type} (a : α) : ReadOnly (Pure.pure a : M α) := by
  intro h b h' e
  simp only [Pure.pure, M.pure, Except.ok.injEq, Prod.mk.injEq] at e
  exact e.2.symm

theorem ReadOnly.throw {α : Type} (e : Err) : ReadOnly (M.throw e : M α) := by
  intro h b h' e; cases e

theorem ReadOnly.bind {α β : Type} {m : M α} {f : α → M β} (hm : ReadOnly m) (hf : ∀ a, ReadOnly (f a)) : ReadOnly (m >>= f) := by
  intro h b h' e
  obtain ⟨a, h1, e1, e2⟩ := M.bind_ok_iff.1 e
  rw [hf a _ _ _ e2, hm _ _ _ e1]

theorem ReadOnly.ofOption {α : Type} (e : Err) (o : Option α) : ReadOnly (M.ofOption e o) := by
  cases o with
  | none => exact ReadOnly.throw e
  | some a => exact ReadOnly.pure a

theorem ReadOnly.assert (b : Bool) : ReadOnly (M.assert b) := by
  cases b with
  | true => exact ReadOnly.pure ()
  | false => exact ReadOnly.throw _

theorem readOnly_getEx (e : ExId) : ReadOnly (getEx e) := by
  intro h a h' he
  rw [getEx] at he
  cases hx : h.exs[e]? with
  | none => rw [hx] at he; cases he
  | some o => rw [hx] at he; cases he; rfl

theorem readOnly_getPt (e : PtId) : ReadOnly (getPt e) := by
  intro h a h' he
  rw [getPt] at he
  cases hx : h.pts[e]? with
  | none => rw [hx] at he; cases he
  | some o => rw [hx] at he; cases he; rfl

theorem readOnly_getFn (e : FnId) : ReadOnly (getFn e) := by
  intro h a h' he
  rw [getFn] at he
  cases hx : h.fns[e]? with
  | none => rw [hx] at he; cases he
  | some o => rw [hx] at he; cases he; rfl

theorem readOnly_matStep (dimG dimF : ℕ) (m : FG) (kw : ExKey × Sym) : ReadOnly (matStep C dimG dimF m kw) := by
  obtain ⟨k, w⟩ := kw
  cases k with
  | fn e =>
    refine (readOnly_getEx _).bind fun _ => (ReadOnly.assert _).bind fun _ => (ReadOnly.ofOption _ _).bind fun _ => ?_
    split
    · exact ReadOnly.pure _
    · exact ReadOnly.throw _
  | inner p q =>
    refine (readOnly_getPt _).bind fun _ => (readOnly_getPt _).bind fun _ => (ReadOnly.assert _).bind fun _ =>
      (ReadOnly.ofOption _ _).bind fun _ => (ReadOnly.ofOption _ _).bind fun _ => ?_
    split
    · exact ReadOnly.pure _
    · exact ReadOnly.throw _
  | one => exact ReadOnly.pure _

theorem readOnly_matLoop (dimG dimF : ℕ) : ∀ (d : Dict ExKey Sym) (m : FG), ReadOnly (matLoop C dimG dimF d m)
  | [], m => ReadOnly.pure _
  | kw :: rest, m => (readOnly_matStep _ _ _ _).bind fun _ => readOnly_matLoop dimG dimF rest _

theorem readOnly_exprToMatrix (e : ExId) (dimG dimF : ℕ) : ReadOnly (exprToMatrix C e dimG dimF) :=
  (readOnly_getEx _).bind fun _ => readOnly_matLoop _ _ _ _

theorem readOnly_extraLoop (dimG dimF : ℕ) : ∀ (l : List (ExId × Kind)) (acc : SymAcc), ReadOnly (extraLoop C dimG dimF l acc)
  | [], _ => ReadOnly.pure _
  | _ :: rest, _ => ((readOnly_exprToMatrix _ _ _).bind fun _ => ReadOnly.pure _).bind fun _ => readOnly_extraLoop dimG dimF rest _

theorem readOnly_pairLoop (dimG dimF : ℕ) (f : FnId) (k : ℕ) : ∀ (l : List (ℕ × ℕ)) (s : SymAcc × ℕ), ReadOnly (pairLoop C dimG dimF f k l s)
  | [], _ => ReadOnly.pure _
  | ij :: rest, s => by
    refine ReadOnly.bind ?_ fun _ => readOnly_pairLoop dimG dimF f k rest _
    rw [pairStep]
    split
    · exact ReadOnly.pure _
    · exact (readOnly_getFn _).bind fun _ => (ReadOnly.ofOption _ _).bind fun _ => (readOnly_exprToMatrix _ _ _).bind fun _ => ReadOnly.pure _

theorem ne_filter_le {l : List Triplet} {t : Triplet} (ht : t ∈ l) : (l.filter (fun x => t ≠ x)).length ≤ l.length - 1 := by
  have h1 := List.length_eq_length_filter_add (l := l) (fun x => decide (t ≠ x))
  have h2 : 0 < (l.filter (fun x => !decide (t ≠ x))).length :=
    List.length_pos_of_mem (List.mem_filter.2 ⟨ht, by simp⟩)
  omega

theorem ne_filter_lt {l : List Triplet} (hl : ¬ l.Nodup) : ∃ t ∈ l, (l.filter (fun x => t ≠ x)).length < l.length - 1 := by
  obtain ⟨t, ht⟩ : ∃ t, 1 < l.count t := by
    by_contra hh
    push Not at hh
    exact hl (List.nodup_iff_count_le_one.2 hh)
  refine ⟨t, List.count_pos_iff.1 (by omega), ?_⟩
  have h1 := List.length_eq_length_filter_add (l := l) (fun x => decide (t ≠ x))
  have h2 : (l.filter (fun x => !decide (t ≠ x))).length = l.count t := by
    rw [List.count_eq_length_filter]
    congr 2; funext j; simp [eq_comm, beq_eq_decide]
  omega

theorem sum_lt_of {l : List Triplet} {f : Triplet → ℕ} {c : ℕ} (h1 : ∀ t ∈ l, f t ≤ c) (h2 : ∃ t ∈ l, f t < c) :
    (l.map f).sum < l.length * c := by
  induction l with
  | nil => obtain ⟨t, ht, -⟩ := h2; simp at ht
  | cons a l ih =>
    have ha := h1 a (by simp)
    have hle : (l.map f).sum ≤ l.length * c := by
      have := List.sum_le_card_nsmul (l.map f) c (by
        intro x hx; obtain ⟨t, ht, rfl⟩ := List.mem_map.1 hx; exact h1 t (by simp [ht]))
      simpa using this
    simp only [List.map_cons, List.sum_cons, List.length_cons, Nat.succ_mul]
    obtain ⟨t, ht, htc⟩ := h2
    rcases List.mem_cons.1 ht with rfl | ht
    · omega
    · have := ih (fun t ht => h1 t (by simp [ht])) ⟨t, ht, htc⟩
      omega

/-- all index pairs give different samples only if no sample occurs twice -/
theorem nodup_of_samplePairs {l : List Triplet} (hl : (samplePairs l l).length = l.length * (l.length - 1)) : l.Nodup := by
  by_contra hh
  have : (samplePairs l l).length = (l.map fun t => (l.filter (fun x => t ≠ x)).length).sum := by
    rw [samplePairs, List.length_flatMap]
    congr 1
    exact List.map_congr_left fun t _ => by simp
  rw [this] at hl
  exact absurd hl (ne_of_lt (sum_lt_of (fun t ht => ne_filter_le ht) (ne_filter_lt hh)))

theorem fnStep_nodup (hC : C.Lawful) (w : WF C h) {f k dimG dimF : ℕ} {o : FnObj} (hf : f ∈ h.fnList) (ho : h.fns[f]? = some o)
    (hcls : o.cls.Computable) (hcc : o.classCons = []) {acc acc' : SymAcc} (hr : fnStep C dimG dimF f k acc h = .ok (acc', h')) :
    o.points.Nodup ∧ ∃ es, Appends C h f o h' es := by
  obtain ⟨h1, es, r1, a1, F⟩ := addClassConstraints_spec hC w hf ho hcls
  rw [fnStep, M.bind_of_ok r1, M.bind_of_ok (getFn_run (a1.get ho))] at hr
  obtain ⟨s, h2, e2, hr2⟩ := M.bind_ok_iff.1 hr
  have q2 := readOnly_pairLoop _ _ _ _ _ _ _ _ _ e2
  rw [q2, M.bind_of_ok (getFn_run (a1.get ho))] at hr2
  obtain ⟨u, h3, e3, hr3⟩ := M.bind_ok_iff.1 hr2
  have q3 := ReadOnly.assert _ _ _ _ e3
  have q4 := ReadOnly.pure _ _ _ _ hr3
  rw [q4, q3]
  refine ⟨nodup_of_samplePairs ?_, es, a1⟩
  rw [F.length_eq]
  by_contra hne
  have hb : ((({ o with classCons := o.classCons ++ es } : FnObj)).classCons.length ==
      ({ o with classCons := o.classCons ++ es } : FnObj).points.length *
      (({ o with classCons := o.classCons ++ es } : FnObj).points.length - 1)) = false := by
    simpa [hcc] using hne
  rw [hb] at e3
  cases e3

theorem fnLoop_nodup (hC : C.Lawful) {dimG dimF : ℕ} (l : List FnId) : ∀ {h h' : Heap} (_ : WF C h) {k : ℕ} {acc acc' : SymAcc}, l.Nodup →
    (∀ f ∈ l, f ∈ h.fnList ∧ ∃ o, h.fns[f]? = some o ∧ o.cls.Computable ∧ o.classCons = []) →
    fnLoop C dimG dimF l k acc h = .ok (acc', h') → ∀ f ∈ l, ∀ o, h.fns[f]? = some o → o.points.Nodup := by
  induction l with
  | nil => intro h h' w k acc acc' _ _ _ f hf; simp at hf
  | cons f l ih =>
    intro h h' w k acc acc' hnd hrdy hr
    rw [List.nodup_cons] at hnd
    obtain ⟨acc1, h1, e1, hr⟩ := M.bind_ok_iff.1 hr
    obtain ⟨hf, o, ho, hcls, hcc⟩ := hrdy f (by simp)
    obtain ⟨hn, es, a1⟩ := fnStep_nodup hC w hf ho hcls hcc e1
    have hother : ∀ g ∈ l, h1.fns[g]? = h.fns[g]? := fun g hg => a1.other (fun hgf => hnd.1 (hgf ▸ hg))
    have := ih a1.wf hnd.2 (fun g hg => by
      obtain ⟨q1, og, q2, q3, q4⟩ := hrdy g (by simp [hg])
      exact ⟨by rw [a1.grow.fnList]; exact q1, og, by rw [hother g hg]; exact q2, q3, q4⟩) hr
    intro g hg og hog
    rcases List.mem_cons.1 hg with rfl | hg
    · rw [ho] at hog; cases hog; exact hn
    · exact this g hg og (by rw [hother g hg]; exact hog)

theorem FnDecl.Ok.computable {d : FnDecl} (hd : d.Ok) : d.cls.Computable := by
  match d, hd with
  | .convex _, _ => trivial
  | .strongly _ _, _ => trivial
  | .smoothStrongly mu (some L), hd => exact ⟨ne_of_gt (lt_of_le_of_lt hd.1 hd.2), ne_of_lt hd.2⟩
  | .smoothConvex (some L), hd => exact ne_of_gt (show 0 < L from hd)

/-- a problem with sensible classes that was translated without error was ready for translation -/
theorem solvable_of_ok (hC : C.Lawful) (hr : runProblem C prog h0 = .ok (r, h)) (hok : ∀ d ∈ decls prog, d.Ok)
    (ht : problemMatrices C r h = .ok (sm, h')) : Solvable r h := by
  have i := reached_inv hC hr
  have hd := problem_decl hC hr
  have hcomp : ∀ f ∈ r.decl, ∀ o, h.fns[f]? = some o → o.cls.Computable := by
    intro f hf o ho
    obtain ⟨k, hk, rfl⟩ := List.mem_iff_getElem.1 hf
    have hk' : k < (decls prog).length := by rw [hd.length_eq]; exact hk
    obtain ⟨o', ho', -, hc, -⟩ := List.Forall₂.get hd hk' hk
    simp only [List.get_eq_getElem] at ho' hc
    rw [ho] at ho'; cases ho'
    rw [hc]
    exact (hok _ (List.getElem_mem hk')).computable
  change symbolicMatrices C r (leafFnIds h) h.ptCounter h.exCounter h = _ at ht
  rw [symbolicMatrices] at ht
  obtain ⟨acc1, h1, e1, ht⟩ := M.bind_ok_iff.1 ht
  obtain rfl := readOnly_extraLoop _ _ _ _ _ _ _ e1
  obtain ⟨acc2, h2, e2, ht⟩ := M.bind_ok_iff.1 ht
  have hl := decl_eq_leafFnIds i
  have hn := fnLoop_nodup hC _ i.wf (leafFnIds_nodup i.wf) (fun f hf => by
    have hfl : f ∈ h1.fnList := (List.mem_filter.1 hf).1
    obtain ⟨o, ho, -⟩ := i.wf.fn f hfl
    exact ⟨hfl, o, ho, hcomp f (hl ▸ hf) o ho, problem_noCC hr f hfl o ho⟩) e2
  intro f hf o ho
  exact ⟨hcomp f hf o ho, hn f (hl ▸ hf) o ho⟩

end Verif
