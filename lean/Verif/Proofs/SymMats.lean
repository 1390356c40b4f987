import Verif.Proofs.ClassCons
import Verif.Proofs.StepAll

namespace Verif
open Heap

theorem Dict.set_new {α β : Type} [DecidableEq α] {d : Dict α β} {k : α} (v : β) (hk : k ∉ d.keys) : d.set k v = d ++ [(k, v)] := by
  unfold Dict.set
  rw [if_neg]
  rw [Dict.has_iff]; exact hk

theorem Dict.update_new {α β : Type} [DecidableEq α] (d2 : Dict α β) : ∀ d1 : Dict α β, (Dict.keys d1 ++ Dict.keys d2).Nodup →
    Dict.update d1 d2 = d1 ++ d2 := by
  induction d2 with
  | nil => intro d1 _; simp [Dict.update]
  | cons kv d2 ih =>
    intro d1 hd
    have hk : kv.1 ∉ Dict.keys d1 := by
      intro hh
      exact (List.disjoint_of_nodup_append hd) hh (by simp)
    have := ih (d1 ++ [kv]) (by simpa using hd)
    unfold Dict.update at this ⊢
    rw [List.foldl_cons, Dict.set_new _ hk, this]
    simp

theorem SumExt.refl (s : FG) : SumExt s [] s := fun env => ⟨by simp, by simp⟩

theorem SumExt.trans {s0 s1 s2 : FG} {a b} (h1 : SumExt s0 a s1) (h2 : SumExt s1 b s2) : SumExt s0 (a ++ b) s2 := by
  intro env
  constructor
  · intro k; rw [(h2 env).1, (h1 env).1]; simp [add_assoc]
  · intro i j; rw [(h2 env).2, (h1 env).2]; simp [add_assoc]

theorem SumExt.one (s : FG) (key : SpKey) (m : FG) : SumExt s [(key, m)] (s.addScaled (Sym.var key.name) m) := by
  intro env
  constructor
  · intro k; simp [FG.addScaled, Sym.eval]
  · intro i j; simp [FG.addScaled, Sym.eval]

theorem SumExt.perm {s0 s1 : FG} {a b} (h : SumExt s0 a s1) (hp : a.Perm b) : SumExt s0 b s1 := by
  intro env
  constructor
  · intro k; rw [(h env).1, (hp.map _).sum_eq]
  · intro i j; rw [(h env).2, (hp.map _).sum_eq]

section
variable {C : CAS} (hC : C.Lawful)

/-! ### extra constraints -/

/-- state after the extra constraints `pre` -/
structure ExtraOk (h : Heap) (pre : List (ExId × Kind)) (acc : SymAcc) : Prop where
  nI : acc.nI = (ineqCons pre).length
  nE : acc.nE = (eqCons pre).length
  ineqKeys : acc.ineq.keys = (List.range (ineqCons pre).length).map (fun i => SpKey.tup 0 0 i 0)
  eqKeys : acc.eq.keys = (List.range (eqCons pre).length).map (fun i => SpKey.tup 1 0 i 0)
  ineq : ∀ en ∈ acc.ineq, ∃ i e, en.1 = SpKey.tup 0 0 i 0 ∧ (ineqCons pre)[i]? = some e ∧ MatOf h e en.2
  eq : ∀ en ∈ acc.eq, ∃ i e, en.1 = SpKey.tup 1 0 i 0 ∧ (eqCons pre)[i]? = some e ∧ MatOf h e en.2
  sum : SumExt FG.zero (acc.ineq ++ acc.eq) acc.sum

theorem ineqCons_append (a b) : ineqCons (a ++ b) = ineqCons a ++ ineqCons b := by simp [ineqCons]
theorem eqCons_append (a b) : eqCons (a ++ b) = eqCons a ++ eqCons b := by simp [eqCons]

theorem ExtraOk.step {h : Heap} {pre} {acc : SymAcc} (a : ExtraOk h pre acc) (c : ExId × Kind) {m : FG} (hm : MatOf h c.1 m) :
    ExtraOk h (pre ++ [c]) (acc.addExtra c.2 m) := by
  obtain ⟨e, k⟩ := c
  cases k with
  | inequality =>
    have h1 : ineqCons (pre ++ [(e, Kind.inequality)]) = ineqCons pre ++ [e] := by rw [ineqCons_append]; rfl
    have h2 : eqCons (pre ++ [(e, Kind.inequality)]) = eqCons pre := by rw [eqCons_append]; simp [eqCons]
    have hk : SpKey.tup 0 0 acc.nI 0 ∉ acc.ineq.keys := by rw [a.ineqKeys, a.nI]; simp
    have hs : acc.ineq.set (.tup 0 0 acc.nI 0) m = acc.ineq ++ [(.tup 0 0 acc.nI 0, m)] := Dict.set_new _ hk
    refine ⟨by simp [SymAcc.addExtra, h1, a.nI], by simp [SymAcc.addExtra, h2, a.nE], ?_, ?_, ?_, ?_, ?_⟩
    · simp only [SymAcc.addExtra, hs, Dict.keys_append, a.ineqKeys, h1]
      simp [List.range_succ, a.nI]
    · simp only [SymAcc.addExtra, h2, a.eqKeys]
    · intro en hen
      simp only [SymAcc.addExtra, hs] at hen
      rcases List.mem_append.1 hen with hen | hen
      · obtain ⟨i, e', e1, e2, e3⟩ := a.ineq en hen
        exact ⟨i, e', e1, by rw [h1]; exact getElem?_append_some _ e2, e3⟩
      · rw [List.mem_singleton] at hen; subst hen
        exact ⟨acc.nI, e, rfl, by rw [h1, a.nI]; simp, hm⟩
    · intro en hen; rw [h2]; exact a.eq en hen
    · simp only [SymAcc.addExtra, hs]
      have := a.sum.trans (SumExt.one acc.sum (.tup 0 0 acc.nI 0) m)
      refine this.perm ?_
      rw [List.append_assoc, List.append_assoc]
      exact List.Perm.append_left _ List.perm_append_comm
  | equality =>
    have h1 : ineqCons (pre ++ [(e, Kind.equality)]) = ineqCons pre := by rw [ineqCons_append]; simp [ineqCons]
    have h2 : eqCons (pre ++ [(e, Kind.equality)]) = eqCons pre ++ [e] := by rw [eqCons_append]; rfl
    have hk : SpKey.tup 1 0 acc.nE 0 ∉ acc.eq.keys := by rw [a.eqKeys, a.nE]; simp
    have hs : acc.eq.set (.tup 1 0 acc.nE 0) m = acc.eq ++ [(.tup 1 0 acc.nE 0, m)] := Dict.set_new _ hk
    refine ⟨by simp [SymAcc.addExtra, h1, a.nI], by simp [SymAcc.addExtra, h2, a.nE], ?_, ?_, ?_, ?_, ?_⟩
    · simp only [SymAcc.addExtra, h1, a.ineqKeys]
    · simp only [SymAcc.addExtra, hs, Dict.keys_append, a.eqKeys, h2]
      simp [List.range_succ, a.nE]
    · intro en hen; rw [h1]; exact a.ineq en hen
    · intro en hen
      simp only [SymAcc.addExtra, hs] at hen
      rcases List.mem_append.1 hen with hen | hen
      · obtain ⟨i, e', e1, e2, e3⟩ := a.eq en hen
        exact ⟨i, e', e1, by rw [h2]; exact getElem?_append_some _ e2, e3⟩
      · rw [List.mem_singleton] at hen; subst hen
        exact ⟨acc.nE, e, rfl, by rw [h2, a.nE]; simp, hm⟩
    · simp only [SymAcc.addExtra, hs]
      have := a.sum.trans (SumExt.one acc.sum (.tup 1 0 acc.nE 0) m)
      rw [← List.append_assoc]
      exact this

theorem ExtraOk.nil (h : Heap) : ExtraOk h [] ⟨FG.zero, [], [], 0, 0⟩ :=
  ⟨rfl, rfl, rfl, rfl, by simp, by simp, SumExt.refl _⟩

include hC in
theorem extraLoop_spec {h : Heap} (w : WF C h) (l : List (ExId × Kind)) : ∀ (pre : List (ExId × Kind)) (acc : SymAcc), ExtraOk h pre acc →
    (∀ c ∈ l, h.ExLive c.1) →
    ∃ acc', extraLoop C h.ptCounter h.exCounter l acc h = .ok (acc', h) ∧ ExtraOk h (pre ++ l) acc' := by
  induction l with
  | nil => intro pre acc a _; exact ⟨acc, rfl, by simpa using a⟩
  | cons c l ih =>
    intro pre acc a hl
    obtain ⟨m, e1, hm⟩ := exprToMatrix_spec hC w (hl c (by simp))
    obtain ⟨acc', e2, a'⟩ := ih (pre ++ [c]) _ (a.step c hm) (fun c' hc' => hl c' (by simp [hc']))
    refine ⟨acc', ?_, by simpa using a'⟩
    have : extraStep C h.ptCounter h.exCounter acc c h = .ok (acc.addExtra c.2 m, h) := by
      rw [extraStep, M.bind_of_ok e1]; rfl
    rw [extraLoop, M.bind_of_ok this, e2]

/-! ### pairs of samples -/

include hC in
theorem pairLoop_spec {h : Heap} (w : WF C h) {f k : ℕ} {o : FnObj} (hf : f ∈ h.fnList) (ho : h.fns[f]? = some o) (l : List (ℕ × ℕ)) :
    ∀ (acc : SymAcc) (c : ℕ), l.Nodup → (∀ ij ∈ l, SpKey.tup 0 k ij.1 ij.2 ∉ acc.ineq.keys) →
    c + (l.filter (fun ij => ij.1 ≠ ij.2)).length ≤ o.classCons.length →
    ∃ new sum', pairLoop C h.ptCounter h.exCounter f k l (acc, c) h =
        .ok ((⟨sum', acc.ineq ++ new, acc.eq, acc.nI, acc.nE⟩, c + (l.filter (fun ij => ij.1 ≠ ij.2)).length), h) ∧
      SumExt acc.sum new sum' ∧
      List.Forall₂ (fun (p : (ℕ × ℕ) × ExId) en => en.1 = SpKey.tup 0 k p.1.1 p.1.2 ∧ MatOf h p.2 en.2)
        ((l.filter (fun ij => ij.1 ≠ ij.2)).zip (o.classCons.drop c)) new := by
  obtain ⟨o', ho', hok⟩ := w.fn f hf
  rw [ho] at ho'; cases ho'
  induction l with
  | nil => intro acc c _ _ _; exact ⟨[], acc.sum, by simp [pairLoop], SumExt.refl _, by simp⟩
  | cons ij l ih =>
    intro acc c hnd hfr hlen
    rw [List.nodup_cons] at hnd
    by_cases hij : ij.1 = ij.2
    · have hfil : (ij :: l).filter (fun ij => ij.1 ≠ ij.2) = l.filter (fun ij => ij.1 ≠ ij.2) := by simp [hij]
      rw [hfil] at hlen ⊢
      obtain ⟨new, sum', e, hs, hF⟩ := ih acc c hnd.2 (fun ij' h' => hfr ij' (by simp [h'])) hlen
      refine ⟨new, sum', ?_, hs, hF⟩
      have : pairStep C h.ptCounter h.exCounter f k (acc, c) ij h = .ok ((acc, c), h) := by rw [pairStep, if_pos hij]; rfl
      rw [pairLoop, M.bind_of_ok this, e]
    · have hfil : (ij :: l).filter (fun ij => ij.1 ≠ ij.2) = ij :: l.filter (fun ij => ij.1 ≠ ij.2) := by simp [hij]
      rw [hfil, List.length_cons] at hlen
      rw [hfil]
      have hc : c < o.classCons.length := by omega
      have hmem : o.classCons[c] ∈ o.classCons := List.getElem_mem hc
      obtain ⟨m, e1, hm⟩ := exprToMatrix_spec hC w (hok.classCons _ hmem)
      have hk := hfr ij (by simp)
      have hset : acc.ineq.set (.tup 0 k ij.1 ij.2) m = acc.ineq ++ [(.tup 0 k ij.1 ij.2, m)] := Dict.set_new _ hk
      obtain ⟨new, sum', e, hs, hF⟩ := ih (acc.addPair k ij.1 ij.2 m) (c + 1) hnd.2 (by
        intro ij' h'
        simp only [SymAcc.addPair, hset, Dict.keys_append]
        rw [List.mem_append]
        rintro (hh | hh)
        · exact hfr ij' (by simp [h']) hh
        · simp only [Dict.keys_cons, Dict.keys_nil, List.mem_singleton, SpKey.tup.injEq, true_and] at hh
          have : ij' = ij := Prod.ext hh.1 hh.2
          exact hnd.1 (this ▸ h')) (by omega)
      refine ⟨(.tup 0 k ij.1 ij.2, m) :: new, sum', ?_, ?_, ?_⟩
      · have : pairStep C h.ptCounter h.exCounter f k (acc, c) ij h = .ok ((acc.addPair k ij.1 ij.2 m, c + 1), h) := by
          rw [pairStep, if_neg hij, M.bind_of_ok (getFn_run ho),
            M.bind_of_ok (show M.ofOption .index o.classCons[(acc, c).2]? h = .ok (o.classCons[c], h) by
              show M.ofOption .index o.classCons[c]? h = _
              rw [List.getElem?_eq_getElem hc]; rfl), M.bind_of_ok e1]
          rfl
        rw [pairLoop, M.bind_of_ok this, e]
        simp [SymAcc.addPair, hset, Nat.add_assoc, Nat.add_comm 1]
      · exact (SumExt.one acc.sum (.tup 0 k ij.1 ij.2) m).trans hs
      · rw [List.drop_eq_getElem_cons hc, List.zip_cons_cons]
        exact .cons ⟨rfl, hm⟩ hF

/-- a leaf function that can be translated: its formula raises no error and no sample was recorded twice -/
structure FnReady (o : FnObj) : Prop where
  cls : o.cls.Computable
  nodup : o.points.Nodup

/-- what an entry made for function `f` is -/
def PairEntry (h : Heap) (f k : ℕ) (en : SpKey × FG) : Prop := ∃ (o : FnObj) (i j : ℕ) (ti tj : Triplet) (e : ExId),
  en.1 = SpKey.tup 0 k i j ∧ h.fns[f]? = some o ∧ i ≠ j ∧ o.points[i]? = some ti ∧ o.points[j]? = some tj ∧ e ∈ o.classCons ∧
  IsIneq h o.cls ti tj e ∧ MatOf h e en.2

theorem PairEntry.grow {h h' : Heap} (a : Grow h h') {f k en} (p : PairEntry h f k en) : PairEntry h' f k en := by
  obtain ⟨o, i, j, ti, tj, e, h1, h2, h3, h4, h5, h6, h7, h8⟩ := p
  obtain ⟨l, hl⟩ := a.fns f o h2
  exact ⟨_, i, j, ti, tj, e, h1, hl, h3, h4, h5, List.mem_append_left _ h6, h7.grow a, h8.grow a h7.live.isEx⟩

include hC in
/-- common part of the first and of later solves -/
theorem fnStep_pairs {h : Heap} (w : WF C h) {f k : ℕ} {o : FnObj} (hf : f ∈ h.fnList) (ho : h.fns[f]? = some o) (hr : FnReady o)
    (acc : SymAcc) (hfr : ∀ i j, SpKey.tup 0 k i j ∉ acc.ineq.keys) :
    ∃ h' es new sum', addClassConstraints C f h = .ok ((), h') ∧ Appends C h f o h' es ∧
      es.length = o.points.length * (o.points.length - 1) ∧
      List.Forall₂ (fun ij e => IsIneq h' o.cls (o.points.getD ij.1 (0, 0, 0)) (o.points.getD ij.2 (0, 0, 0)) e) (offDiag o.points.length) es ∧
      pairLoop C h.ptCounter h.exCounter f k (loopPairs o.points.length) (acc, 0) h' =
        .ok ((⟨sum', acc.ineq ++ new, acc.eq, acc.nI, acc.nE⟩, o.points.length * (o.points.length - 1)), h') ∧
      SumExt acc.sum new sum' ∧
      List.Forall₂ (fun (p : (ℕ × ℕ) × ExId) en => en.1 = SpKey.tup 0 k p.1.1 p.1.2 ∧ MatOf h' p.2 en.2)
        ((offDiag o.points.length).zip (o.classCons ++ es)) new := by
  obtain ⟨h', es, r, a, F⟩ := addClassConstraints_spec hC w hf ho hr.cls
  rw [samplePairs_eq hr.nodup, List.forall₂_map_left_iff] at F
  have hlen : es.length = o.points.length * (o.points.length - 1) := by rw [← F.length_eq, length_offDiag]
  obtain ⟨new, sum', e, hs, hF⟩ := pairLoop_spec hC a.wf (k := k) (by rw [a.grow.fnList]; exact hf) (a.get ho) (loopPairs o.points.length) acc 0
    (nodup_loopPairs _) (fun ij _ => hfr _ _) (by
      have := length_offDiag o.points.length
      rw [offDiag] at this
      rw [this]; simp [hlen])
  have hl := length_offDiag o.points.length
  rw [offDiag] at hl
  rw [hl, a.grow.ptCounter, a.grow.exCounter, Nat.zero_add] at e
  exact ⟨h', es, new, sum', r, a, hlen, F, e, hs, by simpa [offDiag] using hF⟩

theorem keys_of_forall₂ {h : Heap} {k : ℕ} {new : List (SpKey × FG)} {l : List (ℕ × ℕ)} {cc : List ExId} (hl : l.length ≤ cc.length)
    (hF : List.Forall₂ (fun (p : (ℕ × ℕ) × ExId) en => en.1 = SpKey.tup 0 k p.1.1 p.1.2 ∧ MatOf h p.2 en.2) (l.zip cc) new) :
    Dict.keys new = l.map fun ij => SpKey.tup 0 k ij.1 ij.2 := by
  have : List.Forall₂ (fun (p : (ℕ × ℕ) × ExId) en => SpKey.tup 0 k p.1.1 p.1.2 = en.1) (l.zip cc) new := hF.imp fun _ _ hh => hh.1.symm
  have h2 : (l.zip cc).map (fun p => SpKey.tup 0 k p.1.1 p.1.2) = new.map Prod.fst := by
    rw [← List.forall₂_eq_eq_eq, List.forall₂_map_left_iff, List.forall₂_map_right_iff]; exact this
  rw [Dict.keys, ← h2]
  have h3 : (l.zip cc).map Prod.fst = l := by rw [List.map_fst_zip hl]
  conv_rhs => rw [← h3]
  rw [List.map_map]; rfl

include hC in
theorem fnStep_spec {h : Heap} (w : WF C h) {f k : ℕ} {o : FnObj} (hf : f ∈ h.fnList) (ho : h.fns[f]? = some o) (hr : FnReady o)
    (hcc : o.classCons = []) (acc : SymAcc) (hfr : ∀ i j, SpKey.tup 0 k i j ∉ acc.ineq.keys) :
    ∃ h' es new sum', fnStep C h.ptCounter h.exCounter f k acc h =
        .ok (⟨sum', acc.ineq ++ new, acc.eq, acc.nI + new.length, acc.nE⟩, h') ∧
      Appends C h f o h' es ∧ es.length = o.points.length * (o.points.length - 1) ∧ SumExt acc.sum new sum' ∧
      Dict.keys new = (offDiag o.points.length).map (fun ij => SpKey.tup 0 k ij.1 ij.2) ∧
      ∀ en ∈ new, PairEntry h' f k en := by
  obtain ⟨h', es, new, sum', r, a, hlen, F, e, hs, hF⟩ := fnStep_pairs hC w (k := k) hf ho hr acc hfr
  rw [hcc, List.nil_append] at hF
  have hkeys := keys_of_forall₂ (by rw [hlen, length_offDiag]) hF
  have hnl : new.length = o.points.length * (o.points.length - 1) := by
    have := congrArg List.length hkeys
    simpa [Dict.keys, length_offDiag] using this
  refine ⟨h', es, new, sum', ?_, a, hlen, hs, hkeys, ?_⟩
  · have hg := a.get ho
    rw [fnStep, M.bind_of_ok r, M.bind_of_ok (getFn_run hg), M.bind_of_ok e, M.bind_of_ok (getFn_run hg)]
    have : (o.classCons ++ es).length = o.points.length * (o.points.length - 1) := by simp [hcc, hlen]
    simp only [this, beq_self_eq_true]
    rw [M.bind_of_ok (M.assert_true_run _), hnl]
    rfl
  · intro en hen
    obtain ⟨p, hp, h1, h2⟩ : ∃ p ∈ (offDiag o.points.length).zip es, en.1 = SpKey.tup 0 k p.1.1 p.1.2 ∧ MatOf h' p.2 en.2 := by
      have := hF.flip
      obtain ⟨n, hn, rfl⟩ := List.mem_iff_getElem.1 hen
      have hn' : n < ((offDiag o.points.length).zip es).length := by rw [hF.length_eq]; exact hn
      exact ⟨_, List.getElem_mem hn', List.Forall₂.get hF hn' hn⟩
    have hI : IsIneq h' o.cls (o.points.getD p.1.1 (0, 0, 0)) (o.points.getD p.1.2 (0, 0, 0)) p.2 := by
      obtain ⟨-, hz⟩ := List.forall₂_iff_zip.1 F
      exact @hz p.1 p.2 hp
    have hij : (p.1.1, p.1.2) ∈ offDiag o.points.length := (List.of_mem_zip (a := p.1) (b := p.2) hp).1
    have he : p.2 ∈ es := (List.of_mem_zip (a := p.1) (b := p.2) hp).2
    obtain ⟨hi, hj, hne⟩ := mem_offDiag.1 hij
    refine ⟨_, p.1.1, p.1.2, _, _, p.2, h1, a.get ho, hne, ?_, ?_, List.mem_append_right _ he, hI, h2⟩
    · simp [List.getD_eq_getElem?_getD, hi]
    · simp [List.getD_eq_getElem?_getD, hj]

/-- the leaf functions before the first solve -/
def FnsReady (h : Heap) (l : List FnId) : Prop := ∀ f ∈ l, f ∈ h.fnList ∧ ∃ o, h.fns[f]? = some o ∧ FnReady o ∧ o.classCons = []

theorem Appends.other {h h' : Heap} {f g : ℕ} {o : FnObj} {es} (a : Appends C h f o h' es) (hg : g ≠ f) : h'.fns[g]? = h.fns[g]? := by
  rw [a.fns, List.getElem?_set_ne hg.symm]

theorem mem_fnKeys {ns : List ℕ} : ∀ {k : ℕ} {key : SpKey}, key ∈ fnKeys ns k → ∃ k' i j, key = SpKey.tup 0 k' i j ∧ k ≤ k' := by
  induction ns with
  | nil => intro k key h; simp [fnKeys] at h
  | cons n ns ih =>
    intro k key h
    rcases List.mem_append.1 h with h | h
    · obtain ⟨ij, -, rfl⟩ := List.mem_map.1 h; exact ⟨k, _, _, rfl, le_rfl⟩
    · obtain ⟨k', i, j, h1, h2⟩ := ih h; exact ⟨k', i, j, h1, by omega⟩

include hC in
theorem fnLoop_spec (l : List FnId) : ∀ {h : Heap} (_ : WF C h) (k : ℕ) (acc : SymAcc), l.Nodup → FnsReady h l →
    (∀ k' i j, k ≤ k' → SpKey.tup 0 k' i j ∉ acc.ineq.keys) →
    ∃ h' new sum', fnLoop C h.ptCounter h.exCounter l k acc h =
        .ok (⟨sum', acc.ineq ++ new, acc.eq, acc.nI + new.length, acc.nE⟩, h') ∧
      Grow h h' ∧ WF C h' ∧ SumExt acc.sum new sum' ∧ Dict.keys new = fnKeys (l.map (nSamples h)) k ∧
      (∀ f ∈ l, ∀ o, h.fns[f]? = some o →
        ∃ es, es.length = o.points.length * (o.points.length - 1) ∧ h'.fns[f]? = some { o with classCons := es }) ∧
      (∀ g, g ∉ l → h'.fns[g]? = h.fns[g]?) ∧
      ∀ en ∈ new, ∃ i f, l[i]? = some f ∧ PairEntry h' f (k + i) en := by
  induction l with
  | nil =>
    intro h w k acc _ _ _
    exact ⟨h, [], acc.sum, by simp [fnLoop], Grow.refl h, w, SumExt.refl _, rfl, by simp, by simp, by simp⟩
  | cons f l ih =>
    intro h w k acc hnd hrdy hfr
    rw [List.nodup_cons] at hnd
    obtain ⟨hf, o, ho, hr, hcc⟩ := hrdy f (by simp)
    obtain ⟨h1, es, new1, sum1, e1, a1, hlen, s1, k1, p1⟩ := fnStep_spec hC w (k := k) hf ho hr hcc acc (fun i j => hfr k i j le_rfl)
    have hother : ∀ g ∈ l, h1.fns[g]? = h.fns[g]? := fun g hg => a1.other (fun hgf => hnd.1 (hgf ▸ hg))
    have hrdy1 : FnsReady h1 l := by
      intro g hg
      obtain ⟨hg1, og, hog, hgr, hgc⟩ := hrdy g (by simp [hg])
      exact ⟨by rw [a1.grow.fnList]; exact hg1, og, by rw [hother g hg]; exact hog, hgr, hgc⟩
    obtain ⟨h2, new2, sum2, e2, g2, w2, s2, k2, c2, o2, p2⟩ := ih a1.wf (k + 1)
      ⟨sum1, acc.ineq ++ new1, acc.eq, acc.nI + new1.length, acc.nE⟩ hnd.2 hrdy1 (by
        intro k' i j hk'
        rw [Dict.keys_append, List.mem_append, k1]
        rintro (hh | hh)
        · exact hfr k' i j (by omega) hh
        · obtain ⟨ij, -, hh⟩ := List.mem_map.1 hh
          injection hh with _ hk; omega)
    have hns : l.map (nSamples h1) = l.map (nSamples h) := List.map_congr_left fun g hg => by simp [nSamples, hother g hg]
    refine ⟨h2, new1 ++ new2, sum2, ?_, a1.grow.trans g2, w2, s1.trans s2, ?_, ?_, ?_, ?_⟩
    · rw [fnLoop, M.bind_of_ok e1]
      rw [a1.grow.ptCounter, a1.grow.exCounter] at e2
      rw [e2]
      simp [Nat.add_assoc]
    · rw [Dict.keys_append, k1, k2, hns]
      simp [fnKeys, nSamples, ho]
    · intro g hg og hog
      rcases List.mem_cons.1 hg with rfl | hg
      · rw [ho] at hog; cases hog
        refine ⟨es, hlen, ?_⟩
        rw [o2 g hnd.1, a1.get ho]; simp [hcc]
      · exact c2 g hg og (by rw [hother g hg]; exact hog)
    · intro g hg
      rw [List.mem_cons, not_or] at hg
      rw [o2 g hg.2, a1.other hg.1]
    · intro en hen
      rcases List.mem_append.1 hen with hen | hen
      · exact ⟨0, f, by simp, by simpa using (p1 en hen).grow g2⟩
      · obtain ⟨i, g, hi, hp⟩ := p2 en hen
        exact ⟨i + 1, g, by simpa using hi, by rw [show k + (i + 1) = k + 1 + i by omega]; exact hp⟩

theorem nodup_fnKeys (ns : List ℕ) : ∀ k, (fnKeys ns k).Nodup := by
  induction ns with
  | nil => intro k; simp [fnKeys]
  | cons n ns ih =>
    intro k
    rw [fnKeys, List.nodup_append]
    refine ⟨?_, ih _, ?_⟩
    · refine (List.nodup_map_iff ?_).2 (nodup_offDiag n)
      rintro ⟨a, b⟩ ⟨c, d⟩ h; simp_all
    · intro a ha b hb hab
      obtain ⟨ij, -, rfl⟩ := List.mem_map.1 ha
      obtain ⟨k', i, j, h1, h2⟩ := mem_fnKeys hb
      rw [h1] at hab
      injection hab with _ hk; omega

theorem fnKeys_no_extra {cons : List (ExId × Kind)} {ns : List ℕ} {key : SpKey} (hk : key ∈ fnKeys ns (fnShift cons)) :
    key ∉ (List.range (ineqCons cons).length).map (fun i => SpKey.tup 0 0 i 0) := by
  intro hh
  obtain ⟨k', i, j, rfl, hle⟩ := mem_fnKeys hk
  obtain ⟨i', hi', hh⟩ := List.mem_map.1 hh
  have hpos : (ineqCons cons).length ≥ 1 := by have := List.mem_range.1 hi'; omega
  rw [fnShift, if_pos hpos] at hle
  injection hh with _ h2; omega

theorem nodup_expectedKeys (cons : List (ExId × Kind)) (ns : List ℕ) : (expectedKeys cons ns).Nodup := by
  have n1 : ((List.range (ineqCons cons).length).map (fun i => SpKey.tup 0 0 i 0)).Nodup :=
    (List.nodup_map_iff (by intro a b h; simpa using h)).2 List.nodup_range
  have n2 : ((List.range (eqCons cons).length).map (fun i => SpKey.tup 1 0 i 0)).Nodup :=
    (List.nodup_map_iff (by intro a b h; simpa using h)).2 List.nodup_range
  rw [expectedKeys]
  refine List.nodup_append.2 ⟨List.nodup_append.2 ⟨List.nodup_append.2 ⟨n1, nodup_fnKeys _ _, ?_⟩, n2, ?_⟩, by simp, ?_⟩
  · intro a ha b hb hab; subst hab; exact fnKeys_no_extra hb ha
  · intro a ha b hb hab
    subst hab
    obtain ⟨i, -, rfl⟩ := List.mem_map.1 hb
    rcases List.mem_append.1 ha with ha | ha
    · simp at ha
    · obtain ⟨k', i, j, hh, -⟩ := mem_fnKeys ha; simp at hh
  · intro a ha b hb hab
    rw [List.mem_singleton] at hb; subst hab; subst hb
    rcases List.mem_append.1 ha with ha | ha
    · rcases List.mem_append.1 ha with ha | ha
      · simp at ha
      · obtain ⟨k', i, j, hh, -⟩ := mem_fnKeys ha; simp at hh
    · simp at ha

/-- what `circuit_symbolic_matrices` does to a problem -/
structure Translates (C : CAS) (h : Heap) (r : Regs) (sm : SymMats) (h' : Heap) : Prop where
  grow : Grow h h'
  wf : WF C h'
  keys : sm.spExp.keys = expectedKeys r.cons ((leafFnIds h).map (nSamples h))
  nI : sm.nI = (ineqCons r.cons).length + (fnKeys ((leafFnIds h).map (nSamples h)) (fnShift r.cons)).length
  nE : sm.nE = (eqCons r.cons).length
  entries : ∀ en ∈ sm.spExp, Entry h' r (leafFnIds h) en.1 en.2
  sum : ∃ ents obj, sm.spExp = ents ++ [(SpKey.obj, obj)] ∧ SumExt FG.zero ents sm.sum
  classCons : ∀ f ∈ leafFnIds h, ∀ o, h.fns[f]? = some o →
    ∃ es, es.length = o.points.length * (o.points.length - 1) ∧ h'.fns[f]? = some { o with classCons := es }
  others : ∀ f, f ∉ leafFnIds h → h'.fns[f]? = h.fns[f]?

theorem leafFnIds_nodup {h : Heap} (w : WF C h) : (leafFnIds h).Nodup := w.fnNodup.filter _

include hC in
theorem problemMatrices_spec {h : Heap} (w : WF C h) {r : Regs} (hc : ∀ c ∈ r.cons, h.ExLive c.1) {e : ExId} (hm : r.metric = some e)
    (he : h.ExLive e) (hrdy : FnsReady h (leafFnIds h)) :
    ∃ sm h', problemMatrices C r h = .ok (sm, h') ∧ Translates C h r sm h' := by
  obtain ⟨acc1, e1, x1⟩ := extraLoop_spec hC w r.cons [] _ (ExtraOk.nil h) hc
  rw [List.nil_append] at x1
  have hsh : (if acc1.nI ≥ 1 then 1 else 0) = fnShift r.cons := by rw [x1.nI, fnShift]
  obtain ⟨h2, new, sum2, e2, g2, w2, s2, k2, c2, o2, p2⟩ := fnLoop_spec hC (leafFnIds h) w (fnShift r.cons) acc1 (leafFnIds_nodup w) hrdy (by
    intro k' i j hk hh
    rw [x1.ineqKeys] at hh
    obtain ⟨i', hi', hh⟩ := List.mem_map.1 hh
    have hpos : (ineqCons r.cons).length ≥ 1 := by have := List.mem_range.1 hi'; omega
    rw [fnShift, if_pos hpos] at hk
    injection hh with _ h2; omega)
  obtain ⟨m, e3, hm3⟩ := exprToMatrix_spec hC w2 (g2.exLive he)
  rw [g2.ptCounter, g2.exCounter] at e3
  set ns := (leafFnIds h).map (nSamples h) with hns
  have hnd := nodup_expectedKeys r.cons ns
  have hkeys : Dict.keys (acc1.ineq ++ new) ++ Dict.keys acc1.eq ++ [SpKey.obj] = expectedKeys r.cons ns := by
    rw [Dict.keys_append, x1.ineqKeys, x1.eqKeys, k2, expectedKeys]
  have hup : (acc1.ineq ++ new).update acc1.eq = (acc1.ineq ++ new) ++ acc1.eq := by
    refine Dict.update_new _ _ ?_
    rw [← hkeys] at hnd
    exact (List.nodup_append.1 hnd).1
  have hobj : SpKey.obj ∉ Dict.keys ((acc1.ineq ++ new) ++ acc1.eq) := by
    rw [← hkeys] at hnd
    rw [Dict.keys_append]
    intro hh
    exact (List.nodup_append.1 hnd).2.2 _ hh _ (by simp) rfl
  have hnI : acc1.nI = acc1.ineq.length := by
    have := congrArg List.length x1.ineqKeys; simp [Dict.keys] at this; rw [x1.nI, this]
  have hnE : acc1.nE = acc1.eq.length := by
    have := congrArg List.length x1.eqKeys; simp [Dict.keys] at this; rw [x1.nE, this]
  refine ⟨⟨(acc1.ineq ++ new) ++ acc1.eq ++ [(.obj, m)], acc1.nI + new.length, acc1.nE, sum2⟩, h2, ?_, ?_⟩
  · show symbolicMatrices C r (leafFnIds h) h.ptCounter h.exCounter h = _
    rw [symbolicMatrices, M.bind_of_ok e1]
    simp only [hsh]
    rw [M.bind_of_ok e2]
    simp only [hup]
    have hlen : ((acc1.ineq ++ new) ++ acc1.eq).length = acc1.nI + new.length + acc1.nE := by
      rw [hnI, hnE]; simp [Nat.add_assoc]
    simp only [hlen, beq_self_eq_true]
    rw [M.bind_of_ok (M.assert_true_run _), hm, M.bind_of_ok (a := e) (h1 := h2) rfl, M.bind_of_ok e3, Dict.set_new _ hobj]
    rfl
  · refine ⟨g2, w2, ?_, ?_, x1.nE, ?_, ⟨_, _, rfl, ?_⟩, c2, o2⟩
    · rw [← hkeys]; simp
    · show acc1.nI + new.length = _
      rw [x1.nI, ← k2]; simp [Dict.keys]
    · intro en hen
      rcases List.mem_append.1 hen with hen | hen
      · rcases List.mem_append.1 hen with hen | hen
        · rcases List.mem_append.1 hen with hen | hen
          · obtain ⟨i, e', h1, h3, h4⟩ := x1.ineq en hen
            obtain ⟨k, m'⟩ := en; subst h1
            have hlive : h.IsEx e' := by
              have : e' ∈ ineqCons r.cons := List.mem_of_getElem? h3
              obtain ⟨c, hc', rfl⟩ := List.mem_map.1 this
              exact (hc c (List.mem_filter.1 hc').1).isEx
            exact .ineq h3 (h4.grow g2 hlive)
          · obtain ⟨i, f, hi, o, i', j', ti, tj, e', q1, q2, q3, q4, q5, q6, q7, q8⟩ := p2 en hen
            obtain ⟨k, m'⟩ := en; subst q1
            exact .pair hi q2 q3 q4 q5 q6 q7 q8
        · obtain ⟨i, e', h1, h3, h4⟩ := x1.eq en hen
          obtain ⟨k, m'⟩ := en; subst h1
          have hlive : h.IsEx e' := by
            have : e' ∈ eqCons r.cons := List.mem_of_getElem? h3
            obtain ⟨c, hc', rfl⟩ := List.mem_map.1 this
            exact (hc c (List.mem_filter.1 hc').1).isEx
          exact .eq h3 (h4.grow g2 hlive)
      · rw [List.mem_singleton] at hen; subst hen
        exact .obj hm hm3
    · refine (x1.sum.trans s2).perm ?_
      rw [List.append_assoc, List.append_assoc]
      exact List.Perm.append_left _ List.perm_append_comm

/-! ### solving again -/

include hC in
theorem fnStep_again {h : Heap} (w : WF C h) {f k : ℕ} {o : FnObj} (hf : f ∈ h.fnList) (ho : h.fns[f]? = some o) (hr : FnReady o)
    (hcc : o.classCons ≠ []) (acc : SymAcc) (hfr : ∀ i j, SpKey.tup 0 k i j ∉ acc.ineq.keys) :
    fnStep C h.ptCounter h.exCounter f k acc h = .error .assertion := by
  obtain ⟨h', es, new, sum', r, a, hlen, F, e, hs, hF⟩ := fnStep_pairs hC w (k := k) hf ho hr acc hfr
  have hg := a.get ho
  rw [fnStep, M.bind_of_ok r, M.bind_of_ok (getFn_run hg), M.bind_of_ok e, M.bind_of_ok (getFn_run hg)]
  have hpos := List.length_pos_iff.2 hcc
  have : ((o.classCons ++ es).length == o.points.length * (o.points.length - 1)) = false := by
    rw [beq_eq_false_iff_ne, List.length_append, hlen]; omega
  simp only [this]
  rfl

include hC in
theorem fnLoop_again (l : List FnId) : ∀ {h : Heap} (_ : WF C h) (k : ℕ) (acc : SymAcc), l.Nodup →
    (∀ f ∈ l, f ∈ h.fnList ∧ ∃ o, h.fns[f]? = some o ∧ FnReady o) → (∃ f ∈ l, ∃ o, h.fns[f]? = some o ∧ o.classCons ≠ []) →
    (∀ k' i j, k ≤ k' → SpKey.tup 0 k' i j ∉ acc.ineq.keys) →
    fnLoop C h.ptCounter h.exCounter l k acc h = .error .assertion := by
  induction l with
  | nil => intro h w k acc _ _ hex; simp at hex
  | cons f l ih =>
    intro h w k acc hnd hrdy hex hfr
    rw [List.nodup_cons] at hnd
    obtain ⟨hf, o, ho, hr⟩ := hrdy f (by simp)
    by_cases hcc : o.classCons = []
    · obtain ⟨h1, es, new1, sum1, e1, a1, hlen, s1, k1, p1⟩ := fnStep_spec hC w (k := k) hf ho hr hcc acc (fun i j => hfr k i j le_rfl)
      have hother : ∀ g ∈ l, h1.fns[g]? = h.fns[g]? := fun g hg => a1.other (fun hgf => hnd.1 (hgf ▸ hg))
      have := ih a1.wf (k + 1) ⟨sum1, acc.ineq ++ new1, acc.eq, acc.nI + new1.length, acc.nE⟩ hnd.2 (by
          intro g hg
          obtain ⟨hg1, og, hog, hgr⟩ := hrdy g (by simp [hg])
          exact ⟨by rw [a1.grow.fnList]; exact hg1, og, by rw [hother g hg]; exact hog, hgr⟩) (by
          obtain ⟨g, hg, og, hog, hgc⟩ := hex
          rcases List.mem_cons.1 hg with rfl | hg
          · rw [ho] at hog; cases hog; exact absurd hcc hgc
          · exact ⟨g, hg, og, by rw [hother g hg]; exact hog, hgc⟩) (by
          intro k' i j hk'
          rw [Dict.keys_append, List.mem_append, k1]
          rintro (hh | hh)
          · exact hfr k' i j (by omega) hh
          · obtain ⟨ij, -, hh⟩ := List.mem_map.1 hh
            injection hh with _ hk; omega)
      rw [a1.grow.ptCounter, a1.grow.exCounter] at this
      rw [fnLoop, M.bind_of_ok e1, this]
    · rw [fnLoop, M.bind_run, fnStep_again hC w hf ho hr hcc acc (fun i j => hfr k i j le_rfl)]

theorem Grow.leafFnIds {h h' : Heap} (w : WF C h) (g : Grow h h') : leafFnIds h' = leafFnIds h := by
  rw [Verif.leafFnIds, Verif.leafFnIds, g.fnList]
  apply List.filter_congr
  intro f hf
  obtain ⟨o, ho, -⟩ := w.fn f hf
  obtain ⟨l, hl⟩ := g.fns f o ho
  rw [ho, hl]

include hC in
theorem problemMatrices_again {h : Heap} (w : WF C h) {r : Regs} (hc : ∀ c ∈ r.cons, h.ExLive c.1) {e : ExId} (hm : r.metric = some e)
    (he : h.ExLive e) (hrdy : FnsReady h (leafFnIds h)) {sm : SymMats} {h' : Heap} (t : Translates C h r sm h') :
    (∀ f ∈ leafFnIds h, nSamples h f ≤ 1) ∧ (∃ sm2 h2, problemMatrices C r h' = .ok (sm2, h2)) ∨
    (∃ f ∈ leafFnIds h, 2 ≤ nSamples h f) ∧ problemMatrices C r h' = .error .assertion := by
  have hl := t.grow.leafFnIds w
  by_cases hall : ∀ f ∈ leafFnIds h, nSamples h f ≤ 1
  · left
    refine ⟨hall, ?_⟩
    obtain ⟨sm2, h2, h3, -⟩ := problemMatrices_spec hC t.wf (r := r) (fun c hc' => t.grow.exLive (hc c hc')) hm (t.grow.exLive he) (by
      rw [hl]
      intro f hf
      obtain ⟨h1, o, ho, hr, hcc⟩ := hrdy f hf
      obtain ⟨es, hes, ho'⟩ := t.classCons f hf o ho
      refine ⟨by rw [t.grow.fnList]; exact h1, _, ho', ⟨hr.cls, hr.nodup⟩, ?_⟩
      have := hall f hf
      simp only [nSamples, ho] at this
      have h0 : o.points.length * (o.points.length - 1) = 0 := by
        have : o.points.length - 1 = 0 := by omega
        rw [this, Nat.mul_zero]
      rw [h0] at hes
      exact List.length_eq_zero_iff.1 hes)
    exact ⟨sm2, h2, h3⟩
  · right
    push Not at hall
    obtain ⟨f, hf, hn⟩ := hall
    refine ⟨⟨f, hf, hn⟩, ?_⟩
    obtain ⟨acc1, e1, x1⟩ := extraLoop_spec hC t.wf r.cons [] _ (ExtraOk.nil h') (fun c hc' => t.grow.exLive (hc c hc'))
    rw [List.nil_append] at x1
    have hsh : (if acc1.nI ≥ 1 then 1 else 0) = fnShift r.cons := by rw [x1.nI, fnShift]
    have := fnLoop_again hC (leafFnIds h) t.wf (fnShift r.cons) acc1 (leafFnIds_nodup w) (by
        intro g hg
        obtain ⟨h1, o, ho, hr, hcc⟩ := hrdy g hg
        obtain ⟨es, hes, ho'⟩ := t.classCons g hg o ho
        exact ⟨by rw [t.grow.fnList]; exact h1, _, ho', ⟨hr.cls, hr.nodup⟩⟩) (by
        obtain ⟨h1, o, ho, hr, hcc⟩ := hrdy f hf
        obtain ⟨es, hes, ho'⟩ := t.classCons f hf o ho
        refine ⟨f, hf, _, ho', ?_⟩
        simp only [nSamples, ho] at hn
        have : 0 < o.points.length * (o.points.length - 1) := Nat.mul_pos (by omega) (by omega)
        intro hh
        simp only at hh
        rw [hh, List.length_nil] at hes
        omega) (by
        intro k' i j hk hh
        rw [x1.ineqKeys] at hh
        obtain ⟨i', hi', hh⟩ := List.mem_map.1 hh
        have hpos : (ineqCons r.cons).length ≥ 1 := by have := List.mem_range.1 hi'; omega
        rw [fnShift, if_pos hpos] at hk
        injection hh with _ h2; omega)
    show symbolicMatrices C r (leafFnIds h') h'.ptCounter h'.exCounter h' = _
    rw [symbolicMatrices, M.bind_of_ok e1, hl]
    simp only [hsh]
    rw [M.bind_run, this]

end

end Verif
