import Verif.Spec.Clean
import Verif.Model.Problem
import Verif.Proofs.PointExpr
import Verif.Proofs.ProgramExpr

namespace Verif
open Heap

namespace Dict
variable {α β : Type} [DecidableEq α]

/-- every entry satisfies `P` -/
def All (P : α → β → Prop) (d : Dict α β) : Prop := ∀ kw ∈ d, P kw.1 kw.2

theorem All.set {P : α → β → Prop} {d : Dict α β} (hd : d.All P) {k : α} {v : β} (hv : P k v) : (d.set k v).All P := by
  unfold Dict.set
  split
  · intro kw hkw
    obtain ⟨kw', h1, rfl⟩ := List.mem_map.1 hkw
    by_cases h : kw'.1 = k
    · simpa [h] using hv
    · simpa [h] using hd kw' h1
  · intro kw hkw
    rcases List.mem_append.1 hkw with h | h
    · exact hd kw h
    · rw [List.mem_singleton] at h; subst h; exact hv

theorem All.merge {P : α → β → Prop} {plus : β → β → β} (hp : ∀ k a b, P k a → P k b → P k (plus a b)) {d1 d2 : Dict α β}
    (h1 : d1.All P) (h2 : d2.All P) : (Dict.merge plus d1 d2).All P := by
  have : ∀ (l m : Dict α β), l.All P → m.All P → (l.foldl (mergeStep plus d1) m).All P := by
    intro l
    induction l with
    | nil => intro m _ hm; exact hm
    | cons kv l ih =>
      intro m hl hm
      refine ih _ (fun kw hk => hl kw (List.mem_cons_of_mem _ hk)) ?_
      unfold mergeStep
      split
      · split
        · next w hw => exact hm.set (hp _ _ _ (hm _ (mem_of_get? hw)) (hl kv (by simp)))
        · exact hm
      · exact hm.set (hl kv (by simp))
  exact this d2 d1 h2 h1

theorem All.prune {P : α → β → Prop} {d : Dict α β} (hd : d.All P) (z : β → Bool) : (Dict.prune z d).All P :=
  fun kw hk => hd kw (mem_prune.1 hk).1

theorem All.mapVals {P : α → β → Prop} {d : Dict α β} (hd : d.All P) {f : β → β} (hf : ∀ k v, P k v → P k (f v)) :
    (Dict.mapVals f d).All P := by
  intro kw hk
  obtain ⟨kw', h1, rfl⟩ := List.mem_map.1 hk
  exact hf _ _ (hd kw' h1)

theorem All.multiply {P : α → β → Prop} {Q : α × α → β → Prop} {times plus : β → β → β} (ht : ∀ k k' a b, P k a → P k' b → Q (k, k') (times a b))
    (hp : ∀ k a b, Q k a → Q k b → Q k (plus a b)) {d1 d2 : Dict α β} (h1 : d1.All P) (h2 : d2.All P) :
    (Dict.multiply times plus d1 d2).All Q := by
  have inner : ∀ (kv1 : α × β), P kv1.1 kv1.2 → ∀ (l : Dict α β) (m : Dict (α × α) β), l.All P → m.All Q →
      (l.foldl (mulStep times plus kv1) m).All Q := by
    intro kv1 hk l
    induction l with
    | nil => intro m _ hm; exact hm
    | cons kv l ih =>
      intro m hl hm
      refine ih _ (fun kw hk => hl kw (List.mem_cons_of_mem _ hk)) ?_
      have := ht _ _ _ _ hk (hl kv (by simp))
      unfold mulStep
      split
      · next w hw => exact hm.set (hp _ _ _ (hm _ (mem_of_get? hw)) this)
      · exact hm.set this
  have outer : ∀ (l : Dict α β) (m : Dict (α × α) β), l.All P → m.All Q →
      (l.foldl (fun acc kv1 => d2.foldl (mulStep times plus kv1) acc) m).All Q := by
    intro l
    induction l with
    | nil => intro m _ hm; exact hm
    | cons kv l ih =>
      intro m hl hm
      exact ih _ (fun kw hk => hl kw (List.mem_cons_of_mem _ hk)) (inner kv (hl kv (by simp)) d2 m h2 hm)
  exact outer d1 [] h1 (fun kw hk => by simp at hk)

end Dict

variable {V : Set Name} {C : CAS}

/-- weights of a Point -/
def PtW (V : Set Name) (_ : PtId) (s : Sym) : Prop := ∀ n ∈ s.vars, n ∈ V
/-- weights of an Expression -/
def ExW (V : Set Name) (k : ExKey) (s : Sym) : Prop := (∀ n ∈ s.vars, n ∈ V) ∧ (k = .one → ∀ env, s.eval env = 0)

/-- the computation keeps the heap clean -/
def Keeps (V : Set Name) {α : Type} (x : M α) : Prop := ∀ h a h', h.Clean V → x h = .ok (a, h') → h'.Clean V

theorem Keeps.bind {α β : Type} {x : M α} {f : α → M β} (hx : Keeps V x) (hf : ∀ a, Keeps V (f a)) : Keeps V (x >>= f) := by
  intro h a h' hc hr
  obtain ⟨b, h1, e1, e2⟩ := M.bind_ok_iff.1 hr
  exact hf b _ _ _ (hx _ _ _ hc e1) e2

theorem Keeps.pure {α : Type} (a : α) : Keeps V (Pure.pure a : M α) := by
  intro h b h' hc hr
  simp only [M.pure_run, Except.ok.injEq, Prod.mk.injEq] at hr
  rw [← hr.2]; exact hc

theorem Keeps.throw {α : Type} (e : Err) : Keeps V (M.throw e : M α) := by
  intro h b h' hc hr; simp at hr

theorem Keeps.assert (b : Bool) : Keeps V (M.assert b) := by
  unfold M.assert; split
  · exact Keeps.pure _
  · exact Keeps.throw _

theorem Keeps.ofOption {α : Type} (e : Err) (o : Option α) : Keeps V (M.ofOption e o) := by
  cases o
  · exact Keeps.throw _
  · exact Keeps.pure _

theorem Keeps.ite {α : Type} {c : Prop} [Decidable c] {x y : M α} (hx : Keeps V x) (hy : Keeps V y) : Keeps V (if c then x else y) := by
  split
  · exact hx
  · exact hy

theorem Keeps.get : Keeps V M.get := by
  intro h b h' hc hr
  simp only [M.get, Except.ok.injEq, Prod.mk.injEq] at hr
  rw [← hr.2]; exact hc

theorem Keeps.getPt_bind {β : Type} (p : PtId) {f : PtObj → M β} (hf : ∀ o : PtObj, o.dict.All (PtW V) → Keeps V (f o)) :
    Keeps V (Verif.getPt p >>= f) := by
  intro h a h' hc hr
  obtain ⟨b, h1, e1, e2⟩ := M.bind_ok_iff.1 hr
  unfold Verif.getPt at e1
  split at e1
  · next o ho =>
    simp only [Except.ok.injEq, Prod.mk.injEq] at e1
    obtain ⟨rfl, rfl⟩ := e1
    exact hf _ (fun kw hk => hc.pts _ (List.mem_of_getElem? ho) kw hk) _ _ _ hc e2
  · simp at e1

theorem Keeps.getEx_bind {β : Type} (p : ExId) {f : ExObj → M β} (hf : ∀ o : ExObj, o.dict.All (ExW V) → Keeps V (f o)) :
    Keeps V (Verif.getEx p >>= f) := by
  intro h a h' hc hr
  obtain ⟨b, h1, e1, e2⟩ := M.bind_ok_iff.1 hr
  unfold Verif.getEx at e1
  split at e1
  · next o ho =>
    simp only [Except.ok.injEq, Prod.mk.injEq] at e1
    obtain ⟨rfl, rfl⟩ := e1
    exact hf _ (fun kw hk => hc.exs _ (List.mem_of_getElem? ho) kw hk) _ _ _ hc e2
  · simp at e1

theorem Keeps.getPt (p : PtId) : Keeps V (Verif.getPt p) := by
  intro h a h' hc hr
  unfold Verif.getPt at hr
  split at hr
  · simp only [Except.ok.injEq, Prod.mk.injEq] at hr; rw [← hr.2]; exact hc
  · simp at hr

theorem Keeps.getEx (p : ExId) : Keeps V (Verif.getEx p) := by
  intro h a h' hc hr
  unfold Verif.getEx at hr
  split at hr
  · simp only [Except.ok.injEq, Prod.mk.injEq] at hr; rw [← hr.2]; exact hc
  · simp at hr

theorem Keeps.getFn (p : FnId) : Keeps V (Verif.getFn p) := by
  intro h a h' hc hr
  unfold Verif.getFn at hr
  split at hr
  · simp only [Except.ok.injEq, Prod.mk.injEq] at hr; rw [← hr.2]; exact hc
  · simp at hr

theorem Keeps.setFn (f : FnId) (o : FnObj) : Keeps V (Verif.setFn f o) := by
  intro h a h' hc hr
  simp only [Verif.setFn, Except.ok.injEq, Prod.mk.injEq] at hr
  rw [← hr.2]; exact ⟨hc.pts, hc.exs⟩

theorem Keeps.newPt {d : Dict PtId Sym} (hd : d.All (PtW V)) : Keeps V (Verif.newPt d) := by
  intro h a h' hc hr
  simp only [Verif.newPt, Except.ok.injEq, Prod.mk.injEq] at hr
  rw [← hr.2]
  refine ⟨?_, hc.exs⟩
  intro o ho
  rcases List.mem_append.1 ho with ho | ho
  · exact hc.pts o ho
  · rw [List.mem_singleton] at ho; subst ho; exact hd

theorem Keeps.newEx {d : Dict ExKey Sym} (hd : d.All (ExW V)) : Keeps V (Verif.newEx d) := by
  intro h a h' hc hr
  simp only [Verif.newEx, Except.ok.injEq, Prod.mk.injEq] at hr
  rw [← hr.2]
  refine ⟨hc.pts, ?_⟩
  intro o ho
  rcases List.mem_append.1 ho with ho | ho
  · exact hc.exs o ho
  · rw [List.mem_singleton] at ho; subst ho; exact hd

theorem Keeps.newLeafPt : Keeps V Verif.newLeafPt := by
  intro h a h' hc hr
  simp only [Verif.newLeafPt, Except.ok.injEq, Prod.mk.injEq] at hr
  rw [← hr.2]
  refine ⟨?_, hc.exs⟩
  intro o ho
  rcases List.mem_append.1 ho with ho | ho
  · exact hc.pts o ho
  · rw [List.mem_singleton] at ho; subst ho
    intro kw hk; simp at hk; subst hk; simp [Sym.vars]

theorem Keeps.newLeafEx : Keeps V Verif.newLeafEx := by
  intro h a h' hc hr
  simp only [Verif.newLeafEx, Except.ok.injEq, Prod.mk.injEq] at hr
  rw [← hr.2]
  refine ⟨hc.pts, ?_⟩
  intro o ho
  rcases List.mem_append.1 ho with ho | ho
  · exact hc.exs o ho
  · rw [List.mem_singleton] at ho; subst ho
    intro kw hk; simp at hk; subst hk; simp [Sym.vars]

theorem Keeps.newFn (d r) : Keeps V (Verif.newFn d r) := by
  intro h a h' hc hr
  simp only [Verif.newFn, Except.ok.injEq, Prod.mk.injEq] at hr
  rw [← hr.2]; exact ⟨hc.pts, hc.exs⟩

theorem Keeps.newLeafFn (c r) : Keeps V (Verif.newLeafFn c r) := by
  intro h a h' hc hr
  simp only [Verif.newLeafFn, Except.ok.injEq, Prod.mk.injEq] at hr
  rw [← hr.2]; exact ⟨hc.pts, hc.exs⟩

theorem Keeps.prunePt (p : PtId) : Keeps V (Verif.prunePt C p) := by
  intro h a h' hc hr
  unfold Verif.prunePt at hr
  split at hr
  · next o ho =>
    simp only [Except.ok.injEq, Prod.mk.injEq] at hr
    rw [← hr.2]
    refine ⟨?_, hc.exs⟩
    intro o' ho'
    rcases List.mem_or_eq_of_mem_set ho' with h1 | rfl
    · exact hc.pts _ h1
    · intro kw hk; exact hc.pts _ (List.mem_of_getElem? ho) kw (Dict.mem_prune.1 hk).1
  · simp at hr

theorem Keeps.pruneEx (p : ExId) : Keeps V (Verif.pruneEx C p) := by
  intro h a h' hc hr
  unfold Verif.pruneEx at hr
  split at hr
  · next o ho =>
    simp only [Except.ok.injEq, Prod.mk.injEq] at hr
    rw [← hr.2]
    refine ⟨hc.pts, ?_⟩
    intro o' ho'
    rcases List.mem_or_eq_of_mem_set ho' with h1 | rfl
    · exact hc.exs _ h1
    · intro kw hk; exact hc.exs _ (List.mem_of_getElem? ho) kw (Dict.mem_prune.1 hk).1
  · simp at hr

section ops
variable (hC : C.Lawful)
include hC

theorem vars_plusS {a b : Sym} (ha : ∀ n ∈ a.vars, n ∈ V) (hb : ∀ n ∈ b.vars, n ∈ V) : ∀ n ∈ (plusS C a b).vars, n ∈ V := by
  intro n hn
  rcases List.mem_append.1 (hC.simp_vars _ n hn) with h | h
  · exact ha n h
  · exact hb n h

theorem vars_timesS {a b : Sym} (ha : ∀ n ∈ a.vars, n ∈ V) (hb : ∀ n ∈ b.vars, n ∈ V) : ∀ n ∈ (timesS C a b).vars, n ∈ V := by
  intro n hn
  rcases List.mem_append.1 (hC.simp_vars _ n hn) with h | h
  · exact ha n h
  · exact hb n h

theorem keeps_ptAdd (p q : PtId) : Keeps V (ptAdd C p q) :=
  Keeps.getPt_bind p fun _ ha => Keeps.getPt_bind q fun _ hb =>
    Keeps.newPt ((ha.merge (fun _ _ _ h1 h2 => vars_plusS hC h1 h2) hb).prune _)

theorem keeps_ptScale {s : Sym} (hs : ∀ n ∈ s.vars, n ∈ V) (p : PtId) : Keeps V (ptScale C s p) :=
  Keeps.getPt_bind p fun _ ha => Keeps.newPt (ha.mapVals fun _ _ h => vars_timesS hC h hs)

omit hC in
theorem num_vars {c : ℚ} : ∀ n ∈ (Sym.num c).vars, n ∈ V := by simp [Sym.vars]

theorem keeps_ptSub (p q : PtId) : Keeps V (ptSub C p q) :=
  (keeps_ptScale hC num_vars q).bind fun _ => keeps_ptAdd hC p _

theorem keeps_ptDiv (p : PtId) (c : ℚ) : Keeps V (ptDiv C p c) :=
  Keeps.ite (Keeps.throw _) (keeps_ptScale hC num_vars p)

theorem keeps_ptInner (p q : PtId) : Keeps V (ptInner C p q) := by
  refine Keeps.getPt_bind p fun _ ha => Keeps.getPt_bind q fun _ hb => Keeps.newEx ?_
  intro kw hk
  obtain ⟨kv, h1, rfl⟩ := List.mem_map.1 hk
  have := Dict.All.multiply (P := PtW V) (Q := fun _ s => ∀ n ∈ s.vars, n ∈ V) (times := timesS C) (plus := (· + ·))
    (fun _ _ _ _ h1 h2 => vars_timesS hC h1 h2)
    (fun _ a b h1 h2 n hn => (List.mem_append.1 hn).elim (h1 n) (h2 n)) ha hb
  exact ⟨this kv h1, fun hh => by simp at hh⟩

theorem keeps_ptPow (p : PtId) (n : ℚ) : Keeps V (ptPow C p n) := (Keeps.assert _).bind fun _ => keeps_ptInner hC p p

theorem keeps_exAdd (p q : ExId) : Keeps V (exAdd C p q) := by
  refine Keeps.getEx_bind p fun _ ha => Keeps.getEx_bind q fun _ hb => Keeps.newEx (ha.merge ?_ hb)
  intro k a b h1 h2
  exact ⟨vars_plusS hC h1.1 h2.1, fun hk env => by rw [plusS_eval hC, h1.2 hk, h2.2 hk, add_zero]⟩

theorem keeps_exAddNum (p : ExId) : Keeps V (exAddNum C p 0) := by
  refine Keeps.getEx_bind p fun _ ha => Keeps.newEx (ha.merge ?_ ?_)
  · intro k a b h1 h2
    exact ⟨vars_plusS hC h1.1 h2.1, fun hk env => by rw [plusS_eval hC, h1.2 hk, h2.2 hk, add_zero]⟩
  · intro kw hk
    rw [List.mem_singleton] at hk; subst hk
    exact ⟨num_vars, by simp⟩

theorem keeps_exScale {s : Sym} (hs : ∀ n ∈ s.vars, n ∈ V) (p : ExId) : Keeps V (exScale C s p) :=
  Keeps.getEx_bind p fun _ ha => Keeps.newEx (ha.mapVals fun _ _ h =>
    ⟨vars_timesS hC h.1 hs, fun hk env => by rw [timesS_eval hC, h.2 hk, zero_mul]⟩)

theorem keeps_exSub (p q : ExId) : Keeps V (exSub C p q) :=
  (keeps_exScale hC num_vars q).bind fun _ => keeps_exAdd hC p _

theorem keeps_exDiv (p : ExId) (c : ℚ) : Keeps V (exDiv C p c) :=
  Keeps.ite (Keeps.throw _) (keeps_exScale hC num_vars p)

end ops

theorem keeps_findTriplet (d : Dict PtId Sym) (l : List Triplet) : Keeps V (findTriplet C d l) := by
  induction l with
  | nil => exact Keeps.pure _
  | cons t l ih => exact (Keeps.getPt _).bind fun o => Keeps.ite (Keeps.pure _) ih

theorem keeps_isEvaluated (f : FnId) (x : PtId) : Keeps V (isEvaluated C f x) :=
  (Keeps.getFn _).bind fun _ => (Keeps.getPt _).bind fun _ => keeps_findTriplet _ _

theorem keeps_separateLoop (x : PtId) (l : List (FnId × ℚ)) : ∀ acc, Keeps V (separateLoop C x l acc) := by
  induction l with
  | nil => intro acc; exact Keeps.pure _
  | cons kw l ih =>
    intro acc
    refine (keeps_isEvaluated _ _).bind fun o => ?_
    cases o with
    | none => exact ih _
    | some _ => exact (Keeps.getFn _).bind fun fo => Keeps.ite (ih _) (ih _)

theorem keeps_separate (f : FnId) (x : PtId) : Keeps V (separate C f x) :=
  (Keeps.getFn _).bind fun _ => keeps_separateLoop _ _ _

theorem keeps_recordTriplet (f : FnId) (t : Triplet) : Keeps V (recordTriplet C f t) :=
  (Keeps.prunePt _).bind fun _ => (Keeps.prunePt _).bind fun _ => (Keeps.pruneEx _).bind fun _ => (Keeps.getFn _).bind fun _ =>
    (Keeps.setFn _ _).bind fun _ => (Keeps.getPt _).bind fun _ =>
      Keeps.ite ((Keeps.getFn _).bind fun _ => Keeps.setFn _ _) (Keeps.pure _)

section rec
variable (hC : C.Lawful)
include hC

structure KeepsM (V : Set Name) (r : Methods) : Prop where
  oracle : ∀ f x, Keeps V (r.oracle f x)
  addPoint : ∀ f t, Keeps V (r.addPoint f t)

theorem keeps_addPointLoop {r : Methods} (hr : KeepsM V r) (x : PtId) (n : ℕ) (l : List (FnId × ℚ)) :
    ∀ g v k, Keeps V (addPointLoop C r x n l g v k) := by
  induction l with
  | nil => intro g v k; exact Keeps.pure _
  | cons kw l ih =>
    intro g v k
    refine Keeps.ite ?_ ?_
    · exact (hr.oracle _ _).bind fun _ => (keeps_ptScale hC num_vars _).bind fun _ => (keeps_ptSub hC _ _).bind fun _ =>
        (keeps_exScale hC num_vars _).bind fun _ => (keeps_exSub hC _ _).bind fun _ => ih _ _ _
    · exact (keeps_ptDiv hC _ _).bind fun _ => (keeps_exDiv hC _ _).bind fun _ => (hr.addPoint _ _).bind fun _ => ih _ _ _

theorem keeps_addPointBody {r : Methods} (hr : KeepsM V r) (f : FnId) (t : Triplet) : Keeps V (addPointBody C r f t) :=
  (keeps_recordTriplet _ _).bind fun _ => (Keeps.getFn _).bind fun _ => Keeps.ite (Keeps.pure _)
    ((Keeps.setFn _ _).bind fun _ => (keeps_separate _ _).bind fun _ => Keeps.ite (Keeps.pure _)
      ((Keeps.getFn _).bind fun _ => keeps_addPointLoop hC hr _ _ _ _ _ _))

omit hC in
theorem keeps_valueBody {r : Methods} (hr : KeepsM V r) (f : FnId) (x : PtId) : Keeps V (valueBody C r f x) := by
  refine (keeps_isEvaluated _ _).bind fun o => ?_
  cases o with
  | none => exact (hr.oracle _ _).bind fun _ => Keeps.pure _
  | some _ => exact Keeps.pure _

omit hC in
theorem keeps_gradientBody {r : Methods} (hr : KeepsM V r) (f : FnId) (x : PtId) : Keeps V (gradientBody r f x) :=
  (hr.oracle _ _).bind fun _ => Keeps.pure _

theorem keeps_sumValues {r : Methods} (hr : KeepsM V r) (x : PtId) (l : List (FnId × ℚ)) : ∀ e, Keeps V (sumValues C r x l e) := by
  induction l with
  | nil => intro e; exact Keeps.pure _
  | cons kw l ih =>
    intro e
    exact (keeps_valueBody hr _ _).bind fun _ => (keeps_exScale hC num_vars _).bind fun _ => (keeps_exAdd hC _ _).bind fun _ => ih _

theorem keeps_sumGradients {r : Methods} (hr : KeepsM V r) (x : PtId) (l : List (FnId × ℚ)) : ∀ e, Keeps V (sumGradients C r x l e) := by
  induction l with
  | nil => intro e; exact Keeps.pure _
  | cons kw l ih =>
    intro e
    exact (keeps_gradientBody hr _ _).bind fun _ => (keeps_ptScale hC num_vars _).bind fun _ => (keeps_ptAdd hC _ _).bind fun _ => ih _

theorem keeps_oracleFresh {r : Methods} (hr : KeepsM V r) (f : FnId) (x : PtId) (a : Option (PtId × ExId)) :
    Keeps V (oracleFresh C r f x a) := by
  refine (keeps_separate _ _).bind fun nd => Keeps.bind ?_ fun v => Keeps.bind ?_ fun g => (hr.addPoint _ _).bind fun _ => Keeps.pure _
  · cases a with
    | some _ => exact Keeps.pure _
    | none =>
      exact Keeps.ite ((Keeps.newEx (fun kw hk => by simp at hk)).bind fun _ => (Keeps.getFn _).bind fun _ => keeps_sumValues hC hr _ _ _)
        Keeps.newLeafEx
  · exact Keeps.ite ((Keeps.newPt (fun kw hk => by simp at hk)).bind fun _ => (Keeps.getFn _).bind fun _ => keeps_sumGradients hC hr _ _ _)
      Keeps.newLeafPt

theorem keeps_oracleBody {r : Methods} (hr : KeepsM V r) (f : FnId) (x : PtId) : Keeps V (oracleBody C r f x) := by
  refine (keeps_isEvaluated _ _).bind fun a => (Keeps.getFn _).bind fun fo => ?_
  cases a with
  | none => exact keeps_oracleFresh hC hr _ _ _
  | some gv => exact Keeps.ite (Keeps.pure _) (keeps_oracleFresh hC hr _ _ _)

theorem keeps_methods (n : ℕ) : KeepsM V (methods C n) := by
  induction n with
  | zero => exact ⟨fun _ _ => Keeps.throw _, fun _ _ => Keeps.throw _⟩
  | succ n ih => exact ⟨keeps_oracleBody hC ih, keeps_addPointBody hC ih⟩

theorem keeps_PE (ps : List PtId) (a : PE) (ha : a.Clean V) : Keeps V (a.run C ps) := by
  induction a with
  | reg i => exact Keeps.ofOption _ _
  | add a b iha ihb => exact (iha ha.1).bind fun _ => (ihb ha.2).bind fun _ => keeps_ptAdd hC _ _
  | sub a b iha ihb => exact (iha ha.1).bind fun _ => (ihb ha.2).bind fun _ => keeps_ptSub hC _ _
  | neg a iha => exact (iha ha).bind fun _ => keeps_ptScale hC num_vars _
  | scale s a iha => exact (iha ha.2).bind fun _ => keeps_ptScale hC ha.1 _
  | div a c iha => exact (iha ha).bind fun _ => keeps_ptDiv hC _ _

theorem keeps_EE (ps : List PtId) (es : List ExId) (a : EE) (ha : a.Clean V) : Keeps V (a.run C ps es) := by
  induction a with
  | reg i => exact Keeps.ofOption _ _
  | inner a b => exact (keeps_PE hC ps a ha.1).bind fun _ => (keeps_PE hC ps b ha.2).bind fun _ => keeps_ptInner hC _ _
  | pow a n => exact (keeps_PE hC ps a ha).bind fun _ => keeps_ptPow hC _ _
  | add a b iha ihb => exact (iha ha.1).bind fun _ => (ihb ha.2).bind fun _ => keeps_exAdd hC _ _
  | sub a b iha ihb => exact (iha ha.1).bind fun _ => (ihb ha.2).bind fun _ => keeps_exSub hC _ _
  | neg a iha => exact (iha ha).bind fun _ => keeps_exScale hC num_vars _
  | scale s a iha => exact (iha ha.2).bind fun _ => keeps_exScale hC ha.1 _
  | div a c iha => exact (iha ha).bind fun _ => keeps_exDiv hC _ _
  | addNum a c iha => obtain ⟨h1, rfl⟩ := ha; exact (iha h1).bind fun _ => keeps_exAddNum hC _
  | subNum a c iha =>
    obtain ⟨h1, rfl⟩ := ha
    exact (iha h1).bind fun _ => by unfold exSubNum; rw [neg_zero]; exact keeps_exAddNum hC _
  | rsubNum c a iha =>
    obtain ⟨h1, rfl⟩ := ha
    refine (iha h1).bind fun _ => Keeps.bind ?_ fun _ => keeps_exScale hC num_vars _
    unfold exSubNum; rw [neg_zero]; exact keeps_exAddNum hC _

omit hC in
theorem keeps_FE (fs : List FnId) (a : FE) : Keeps V (a.run fs) := by
  have sc : ∀ c f, Keeps V (fnScale c f) := fun c f => (Keeps.getFn _).bind fun _ => Keeps.newFn _ _
  have ad : ∀ f g, Keeps V (fnAdd f g) := fun f g => (Keeps.getFn _).bind fun _ => (Keeps.getFn _).bind fun _ => Keeps.newFn _ _
  induction a with
  | reg i => exact Keeps.ofOption _ _
  | add a b iha ihb => exact iha.bind fun _ => ihb.bind fun _ => ad _ _
  | sub a b iha ihb => exact iha.bind fun _ => ihb.bind fun _ => (sc _ _).bind fun _ => ad _ _
  | neg a iha => exact iha.bind fun _ => sc _ _
  | scale s a iha => exact iha.bind fun _ => sc _ _
  | div a c iha => exact iha.bind fun _ => Keeps.ite (Keeps.throw _) (sc _ _)

omit hC in
theorem keeps_declare (d : FnDecl) : Keeps V (declareFunction d) := by
  match d with
  | .convex r => exact Keeps.newLeafFn _ _
  | .strongly mu r => exact Keeps.newLeafFn _ _
  | .smoothStrongly mu none => exact Keeps.throw _
  | .smoothStrongly mu (some L) => exact Keeps.newLeafFn _ _
  | .smoothConvex none => exact Keeps.throw _
  | .smoothConvex (some L) => exact Keeps.newLeafFn _ _

theorem keeps_instr (r : Regs) (i : Instr) (hi : i.Clean V) : Keeps V (i.run C r) := by
  have km : KeepsM V (methods C pyDepth) := keeps_methods hC _
  have rg : ∀ l i, Keeps V (regGet l i) := fun l i => Keeps.ofOption _ _
  cases i with
  | declare d => exact (keeps_declare d).bind fun _ => Keeps.pure _
  | fn a => exact (keeps_FE _ _).bind fun _ => Keeps.pure _
  | pt a => exact (keeps_PE hC _ a hi).bind fun _ => Keeps.pure _
  | ex a => exact (keeps_EE hC _ _ a hi).bind fun _ => Keeps.pure _
  | initial => exact Keeps.newLeafPt.bind fun _ => Keeps.pure _
  | stationary f =>
    refine (rg _ _).bind fun _ => Keeps.bind ?_ fun _ => Keeps.pure _
    exact Keeps.newLeafPt.bind fun _ => (Keeps.newPt (fun kw hk => by simp at hk)).bind fun _ => Keeps.newLeafEx.bind fun _ =>
      (km.addPoint _ _).bind fun _ => Keeps.pure _
  | oracle f x => exact (rg _ _).bind fun _ => (rg _ _).bind fun _ => (km.oracle _ _).bind fun _ => Keeps.pure _
  | gradient f x => exact (rg _ _).bind fun _ => (rg _ _).bind fun _ => (keeps_gradientBody km _ _).bind fun _ => Keeps.pure _
  | value f x => exact (rg _ _).bind fun _ => (rg _ _).bind fun _ => (keeps_valueBody km _ _).bind fun _ => Keeps.pure _
  | prox x0 f gamma =>
    refine (rg _ _).bind fun _ => (rg _ _).bind fun _ => Keeps.bind ?_ fun _ => Keeps.pure _
    exact Keeps.newLeafPt.bind fun _ => Keeps.newLeafEx.bind fun _ => (keeps_ptScale hC hi _).bind fun _ =>
      (keeps_ptSub hC _ _).bind fun _ => (km.addPoint _ _).bind fun _ => Keeps.pure _
  | conj g f =>
    refine (rg _ _).bind fun _ => (rg _ _).bind fun _ => Keeps.bind ?_ fun _ => Keeps.pure _
    exact Keeps.newLeafPt.bind fun _ => Keeps.newLeafEx.bind fun _ => (km.addPoint _ _).bind fun _ => Keeps.pure _
  | addPoint f x g v =>
    exact (rg _ _).bind fun _ => (rg _ _).bind fun _ => (rg _ _).bind fun _ => (rg _ _).bind fun _ => (km.addPoint _ _).bind fun _ =>
      Keeps.pure _
  | constr e k => exact (rg _ _).bind fun _ => Keeps.pure _
  | metric e => exact (rg _ _).bind fun _ => Keeps.pure _
  | objective e => exact Keeps.pure _

theorem keeps_prog (prog : List Instr) : ∀ r, (∀ i ∈ prog, i.Clean V) → Keeps V (runProg C prog r) := by
  induction prog with
  | nil => intro r _; exact Keeps.pure _
  | cons i prog ih =>
    intro r hp
    exact (keeps_instr hC r i (hp i (by simp))).bind fun r' => ih r' (fun j hj => hp j (by simp [hj]))

theorem keeps_interpolation (cls : FnClass) (ti tj : Triplet) : Keeps V (interpolation C cls ti tj) := by
  have cp : Keeps V (convexPart C ti tj) := (keeps_exSub hC _ _).bind fun _ => (keeps_ptSub hC _ _).bind fun _ =>
    (keeps_ptInner hC _ _).bind fun _ => keeps_exAdd hC _ _
  have sm : ∀ mu L, Keeps V (interpolation.smooth C ti tj mu L) := fun mu L =>
    cp.bind fun _ => Keeps.ite (Keeps.throw _) ((keeps_ptSub hC _ _).bind fun _ => (keeps_ptPow hC _ _).bind fun _ =>
      (keeps_exScale hC num_vars _).bind fun _ => (keeps_exAdd hC _ _).bind fun _ => Keeps.ite (Keeps.throw _)
        ((keeps_ptSub hC _ _).bind fun _ => (keeps_ptSub hC _ _).bind fun _ => (keeps_ptScale hC num_vars _).bind fun _ =>
          (keeps_ptSub hC _ _).bind fun _ => (keeps_ptPow hC _ _).bind fun _ => (keeps_exScale hC num_vars _).bind fun _ =>
            keeps_exAdd hC _ _))
  cases cls with
  | base => exact Keeps.throw _
  | convex => exact cp
  | strongly mu =>
    exact cp.bind fun _ => (keeps_ptSub hC _ _).bind fun _ => (keeps_ptPow hC _ _).bind fun _ =>
      (keeps_exScale hC num_vars _).bind fun _ => keeps_exAdd hC _ _
  | smoothStrongly mu L => exact sm _ _
  | smoothConvex L => exact sm _ _

theorem keeps_addClassConstraints (f : FnId) : Keeps V (addClassConstraints C f) := by
  have ac : ∀ e, Keeps V (appendClassCon f e) := fun e => (Keeps.getFn _).bind fun _ => Keeps.setFn _ _
  have inn : ∀ cls ti l, Keeps V (classConsInner C f cls ti l) := by
    intro cls ti l
    induction l with
    | nil => exact Keeps.pure _
    | cons tj l ih => exact Keeps.ite ((keeps_interpolation hC _ _ _).bind fun _ => (ac _).bind fun _ => ih) ih
  have out : ∀ cls all l, Keeps V (classConsOuter C f cls all l) := by
    intro cls all l
    induction l with
    | nil => exact Keeps.pure _
    | cons tj l ih => exact (inn _ _ _).bind fun _ => ih
  exact (Keeps.getFn _).bind fun _ => Keeps.ite (Keeps.throw _) (out _ _ _)

end rec

theorem clean_reset {h : Heap} (hc : h.Clean V) : h.reset.Clean V := ⟨hc.pts, hc.exs⟩
theorem clean_empty : Heap.empty.Clean V := ⟨by simp [Heap.empty], by simp [Heap.empty]⟩

theorem Heap.Clean.exConst {h : Heap} (hc : h.Clean V) (e : ExId) (env : Name → ℝ)
    (exConst : Sym) (he : ∀ o, h.exs[e]? = some o → exConst = (o.dict.get? .one).getD (Sym.num 0)) (hn : h.exs[e]? = none → exConst = Sym.num 0) :
    exConst.eval env = 0 := by
  cases ho : h.exs[e]? with
  | none => rw [hn ho]; simp
  | some o =>
    rw [he o ho]
    cases hg : Dict.get? o.dict .one with
    | none => simp
    | some w => exact (hc.exs _ (List.mem_of_getElem? ho) _ (Dict.mem_of_get? hg)).2 rfl env

end Verif
