import Verif.Proofs.ProgramExpr

namespace Verif
open Heap

variable {C : CAS} {h h' : Heap}

/-- is `f` a leaf function -/
def leafOf (h : Heap) (f : FnId) : Bool := match h.fns[f]? with | some o => o.leaf | none => false

theorem leafOf_of {f : ℕ} {o : FnObj} (ho : h.fns[f]? = some o) : leafOf h f = o.leaf := by simp [leafOf, ho]

/-- leaf functions in order of declaration -/
def leafFns (h : Heap) : List FnId := h.fnList.filter (leafOf h)

theorem leafOf_ext (w : WF C h) (e : Ext C h h') {f : ℕ} (hf : f ∈ h.fnList) : leafOf h' f = leafOf h f := by
  obtain ⟨o, ho, -⟩ := w.fn f hf
  obtain ⟨o', ho', fe⟩ := e.fns f o ho
  rw [leafOf_of ho, leafOf_of ho', fe.leaf]

theorem leafFns_ext (w : WF C h) (e : Ext C h h') (fl : h'.fnList = h.fnList) : leafFns h' = leafFns h := by
  rw [leafFns, leafFns, fl]
  exact List.filter_congr fun f hf => leafOf_ext w e hf

theorem leafFns_adds (w : WF C h) (a : FnAdds C h h') : leafFns h' = leafFns h := by
  obtain ⟨l, hl, hp⟩ := a.new
  rw [leafFns, leafFns, hl, List.filter_append, List.filter_congr fun f hf => leafOf_ext w a.ext hf]
  have : l.filter (leafOf h') = [] := by
    rw [List.filter_eq_nil_iff]
    intro f hf
    obtain ⟨o, ho, h1, -⟩ := hp f hf
    rw [leafOf_of ho, h1]; simp
  rw [this, List.append_nil]

/-- Everything a script holds is live. -/
structure Inv (C : CAS) (r : Regs) (h : Heap) : Prop where
  wf : WF C h
  pts : ∀ p ∈ r.pts, h.PtLive p
  exs : ∀ e ∈ r.exs, h.ExLive e
  fns : ∀ f ∈ r.fns, f ∈ h.fnList
  decl : r.decl = leafFns h
  cons : ∀ c ∈ r.cons, h.ExLive c.1
  metric : ∀ e ∈ r.metric, h.ExLive e

theorem Inv.mono {r : Regs} (i : Inv C r h) (e : Ext C h h') (w : WF C h') (hl : leafFns h' = leafFns h) : Inv C r h' :=
  ⟨w, fun p hp => e.ptLive (i.pts p hp), fun p hp => e.exLive (i.exs p hp), fun f hf => e.fnList.subset (i.fns f hf),
    i.decl.trans hl.symm, fun c hc => e.exLive (i.cons c hc), fun p hp => e.exLive (i.metric p hp)⟩

theorem Inv.declNodup {r : Regs} (i : Inv C r h) : r.decl.Nodup := by
  rw [i.decl]; exact i.wf.fnNodup.filter _

theorem Inv.mem_decl {r : Regs} (i : Inv C r h) {f : ℕ} (hf : f ∈ h.fnList) {o : FnObj} (ho : h.fns[f]? = some o)
    (hl : o.leaf = true) : f ∈ r.decl := by
  rw [i.decl, leafFns, List.mem_filter]
  exact ⟨hf, by rw [leafOf_of ho, hl]⟩

theorem Inv.keys_decl {r : Regs} (i : Inv C r h) {f : ℕ} (hf : f ∈ h.fnList) {o : FnObj} (ho : h.fns[f]? = some o) :
    ∀ k ∈ o.dict.keys, k ∈ r.decl := by
  intro k hk
  obtain ⟨-, hh⟩ := dict_leaf_keys i.wf hf ho
  obtain ⟨h1, ok, h2, h3, -⟩ := hh k hk
  exact i.mem_decl h1 h2 h3

theorem Inv.appendPts {r : Regs} (i : Inv C r h) {l : List PtId} (hl : ∀ p ∈ l, h.PtLive p) :
    Inv C { r with pts := r.pts ++ l } h :=
  ⟨i.wf, fun p hp => (List.mem_append.1 hp).elim (i.pts p) (hl p), i.exs, i.fns, i.decl, i.cons, i.metric⟩
theorem Inv.appendExs {r : Regs} (i : Inv C r h) {l : List ExId} (hl : ∀ p ∈ l, h.ExLive p) :
    Inv C { r with exs := r.exs ++ l } h :=
  ⟨i.wf, i.pts, fun p hp => (List.mem_append.1 hp).elim (i.exs p) (hl p), i.fns, i.decl, i.cons, i.metric⟩

section
variable {E : Type} [NormedAddCommGroup E] [InnerProductSpace ℝ E]

/-- the real registers are the denotations of the symbolic ones -/
structure SimRegs (D : List FnId) (env : Name → ℝ) (φ : PtId → E) (ψ : ExId → ℝ) (r : Regs) (h : Heap) (rr : RRegs E) : Prop where
  pts : rr.pts = r.pts.map (h.ptVal env φ)
  exs : rr.exs = r.exs.map (h.exVal env φ ψ)
  fns : rr.fns = r.fns.map (fnW D h)
  ndecl : rr.ndecl = r.decl.length
  cons : rr.cons = r.cons.map (fun c => (h.exVal env φ ψ c.1, c.2))
  metric : rr.metric = r.metric.map (h.exVal env φ ψ)

theorem SimRegs.mono (hC : C.Lawful) {D : List FnId} {env : Name → ℝ} {φ φ' : PtId → E} {ψ ψ' : ExId → ℝ} {r : Regs} {rr : RRegs E}
    (s : SimRegs D env φ ψ r h rr) (i : Inv C r h) (e : Ext C h h') (a : h.Agree φ φ' ψ ψ') :
    SimRegs D env φ' ψ' r h' rr := by
  refine ⟨?_, ?_, ?_, s.ndecl, ?_, ?_⟩
  · rw [s.pts]; exact List.map_congr_left fun p hp => (a.ptVal hC e (i.pts p hp) env).symm
  · rw [s.exs]; exact List.map_congr_left fun p hp => (a.exVal hC e (i.exs p hp) env).symm
  · rw [s.fns]; exact List.map_congr_left fun f hf => (fnW_ext e (i.wf.fn_lt (i.fns f hf)) D).symm
  · rw [s.cons]; exact List.map_congr_left fun c hc => by rw [a.exVal hC e (i.cons c hc) env]
  · rw [s.metric]
    cases hm : r.metric with
    | none => rfl
    | some m => simp [a.exVal hC e (i.metric m (by simp [hm])) env]

/-- samples of a heap function, from samples of the declared functions -/
def SRel (D : List FnId) (SR : ℕ → E → E → ℝ → Prop) (f : FnId) : E → E → ℝ → Prop := SR (D.idxOf f)

theorem den_indicator {d : Dict FnId ℚ} (hd : d.NodupKeys) {k : FnId} {c : ℚ} (hk : (k, c) ∈ d) (φ : FnId → ℝ)
    (h1 : φ k = 1) (h0 : ∀ k' ∈ d.keys, k' ≠ k → φ k' = 0) : Dict.den (fun w : ℚ => (w : ℝ)) φ d = c := by
  induction d with
  | nil => simp at hk
  | cons a d ih =>
    have hn : a.1 ∉ Dict.keys d ∧ Dict.NodupKeys d := by simpa [Dict.NodupKeys] using hd
    rw [Dict.den_cons]
    rcases List.mem_cons.1 hk with rfl | hk'
    · have : Dict.den (fun w : ℚ => (w : ℝ)) φ d = Dict.den (fun w : ℚ => (w : ℝ)) (fun _ => 0) d :=
        Dict.den_congr _ _ (fun k' hk' => h0 k' (by simp [hk']) (fun he => hn.1 (he ▸ hk')))
      rw [this]; simp [h1, Dict.den]
    · have hka : a.1 ≠ k := fun he => hn.1 (he ▸ List.mem_map_of_mem (f := Prod.fst) hk')
      rw [ih hn.2 hk' (fun k' hk' => h0 k' (by simp [hk'])), h0 a.1 (by simp) hka]; simp

theorem den_linear {M N : Type} [AddCommGroup M] [Module ℝ M] [AddCommGroup N] [Module ℝ N] (L : M →ₗ[ℝ] N)
    (d : Dict FnId ℚ) (φ : FnId → M) :
    L (Dict.den (fun w : ℚ => (w : ℝ)) φ d) = Dict.den (fun w : ℚ => (w : ℝ)) (fun k => L (φ k)) d := by
  induction d with
  | nil => simp
  | cons a d ih => rw [Dict.den_cons, Dict.den_cons, map_add, ih, map_smul]

theorem weights_sum {M : Type} [AddCommGroup M] [Module ℝ M] (D : List FnId) (d : Dict FnId ℚ) (G : ℕ → M) :
    (Dict.den (fun w : ℚ => (w : ℝ)) (fun k => Finsupp.single (D.idxOf k) (1 : ℝ)) d).sum (fun k c => c • G k) =
      Dict.den (fun w : ℚ => (w : ℝ)) (fun k => G (D.idxOf k)) d := by
  rw [show (Dict.den (fun w : ℚ => (w : ℝ)) (fun k => Finsupp.single (D.idxOf k) (1 : ℝ)) d).sum (fun k c => c • G k) =
    Finsupp.linearCombination ℝ G (Dict.den (fun w : ℚ => (w : ℝ)) (fun k => Finsupp.single (D.idxOf k) (1 : ℝ)) d) from rfl,
    den_linear]
  simp

theorem samples_of_sum {D : List FnId} {d : Dict FnId ℚ} (hd : d.NodupKeys) (hD : ∀ k ∈ d.keys, k ∈ D)
    {SR : ℕ → E → E → ℝ → Prop} {x g : E} {v : ℝ}
    (s : SumSample SR (Dict.den (fun w : ℚ => (w : ℝ)) (fun k => Finsupp.single (D.idxOf k) (1 : ℝ)) d) x g v) :
    ∃ (G : FnId → E) (V : FnId → ℝ), (∀ kw ∈ d, kw.2 ≠ 0 → SRel D SR kw.1 x (G kw.1) (V kw.1)) ∧
      g = Dict.den (fun w : ℚ => (w : ℝ)) G d ∧ v = Dict.den (fun w : ℚ => (w : ℝ)) V d := by
  obtain ⟨G, V, hs, hg, hv⟩ := s
  refine ⟨fun k => G (D.idxOf k), fun k => V (D.idxOf k), ?_, ?_, ?_⟩
  · rintro ⟨k, c⟩ hk hc
    apply hs
    rw [Finsupp.mem_support_iff]
    have := den_linear (Finsupp.lapply (R := ℝ) (D.idxOf k)) d (fun k => Finsupp.single (D.idxOf k) (1 : ℝ))
    rw [Finsupp.lapply_apply] at this
    rw [this, den_indicator hd hk]
    · exact_mod_cast hc
    · simp
    · intro k' hk' hne
      have : D.idxOf k' ≠ D.idxOf k := fun he => hne ((List.idxOf_inj (hD k' hk')).1 he)
      simp [Finsupp.single_apply, this]
  · rw [hg, weights_sum]
  · rw [hv, ← weights_sum]; rfl

theorem comb_of_sum {D : List FnId} {d : Dict FnId ℚ} (hd : d.NodupKeys) (hD : ∀ k ∈ d.keys, k ∈ D)
    {SR : ℕ → E → E → ℝ → Prop} {x g : E} {v : ℝ}
    (s : SumSample SR (Dict.den (fun w : ℚ => (w : ℝ)) (fun k => Finsupp.single (D.idxOf k) (1 : ℝ)) d) x g v) :
    Comb (SRel D SR) d x g v := samples_of_sum hd hD s

theorem Heap.Functional.anti (e : Ext C h h') {S : FnId → E → E → ℝ → Prop} (hS : h'.Functional S) : h.Functional S := by
  refine ⟨hS.val, fun f hf o ho hl hr => ?_⟩
  obtain ⟨o', ho', fe⟩ := e.fns f o ho
  exact hS.grad f (e.fnList.subset hf) o' ho' (fe.leaf.trans hl) (fe.reuse.trans hr)

end

/-- what one API call guarantees -/
structure StepRes (C : CAS) (i : Instr) (r : Regs) (h : Heap) (r' : Regs) (h' : Heap) : Prop where
  ext : Ext C h h'
  inv : Inv C r' h'
  counts : r'.counts = i.next r.counts
  decl : r.decl <+: r'.decl
  sim : ∀ (E : Type) [NormedAddCommGroup E] [InnerProductSpace ℝ E] (SR : ℕ → E → E → ℝ → Prop) (env) (φ : PtId → E) (ψ)
    (D : List FnId) (rr rr' : RRegs E), r'.decl <+: D → D.Nodup → h'.Functional (SRel D SR) →
    SimRegs D env φ ψ r h rr → h.TrueSamples (SRel D SR) env φ ψ → Step SR env i rr rr' →
    ∃ φ' ψ', h.Agree φ φ' ψ ψ' ∧ SimRegs D env φ' ψ' r' h' rr' ∧ h'.TrueSamples (SRel D SR) env φ' ψ'

end Verif
