import Verif.Spec.Exec
import Verif.Spec.Safe
import Verif.Proofs.OracleAll

namespace Verif
open Heap

variable {C : CAS} {h h' : Heap}

theorem M.bind_ok_iff {α β : Type} {x : M α} {f : α → M β} {h : Heap} {r : β × Heap} :
    (x >>= f) h = .ok r ↔ ∃ a h1, x h = .ok (a, h1) ∧ f a h1 = .ok r := by
  rw [M.bind_run]
  cases hx : x h with
  | ok v =>
    obtain ⟨a, h1⟩ := v
    constructor
    · intro hr; exact ⟨a, h1, rfl, hr⟩
    · rintro ⟨a', h1', he, hr⟩
      cases he; exact hr
  | error e => simp

theorem regGet_run {l : List ℕ} {i : ℕ} (hi : i < l.length) (h : Heap) : regGet l i h = .ok (l[i], h) := by
  rw [regGet, List.getElem?_eq_getElem hi]; rfl

theorem regGet_ok {l : List ℕ} {i : ℕ} {h : Heap} {r} (hr : regGet l i h = .ok r) : i < l.length := by
  by_contra hi
  rw [regGet, List.getElem?_eq_none (by omega)] at hr
  simp [M.ofOption, M.throw] at hr

theorem getD_map {α β : Type} (l : List α) (f : α → β) (d : β) {i : ℕ} (hi : i < l.length) :
    (l.map f).getD i d = f l[i] := by
  simp [List.getD, hi]

section
variable (hC : C.Lawful)
include hC

theorem PE.run_live {ps : List PtId} (a : PE) : ∀ {h : Heap}, (∀ p ∈ ps, h.PtLive p) → a.Safe ps.length = true →
    ∃ q h', PtRes h (a.run C ps h) q h' ∧
      ∀ (E : Type) [NormedAddCommGroup E] [InnerProductSpace ℝ E] (env) (φ : PtId → E),
        h'.ptVal env φ q = a.den env (ps.map (h.ptVal env φ)) := by
  induction a with
  | reg i =>
    intro h hp hs
    have hi : i < ps.length := by simpa [PE.Safe] using hs
    refine ⟨ps[i], h, ⟨regGet_run hi h, onlyAdds_refl h, hp _ (List.getElem_mem hi)⟩, fun E _ _ env φ => ?_⟩
    rw [PE.den, getD_map _ _ _ hi]
  | add a b iha ihb =>
    intro h hp hs
    simp only [PE.Safe, Bool.and_eq_true] at hs
    obtain ⟨x, h1, r1, v1⟩ := iha hp hs.1
    have e1 := ext_onlyAdds (C := C) r1.adds
    obtain ⟨y, h2, r2, v2⟩ := ihb (h := h1) (fun p h => e1.ptLive (hp p h)) hs.2
    have e2 := ext_onlyAdds (C := C) r2.adds
    obtain ⟨z, h3, r3, v3⟩ := ptAdd_live hC (e2.ptLive r1.live) r2.live
    refine ⟨z, h3, ⟨?_, (r1.adds.trans r2.adds).trans r3.adds, r3.live⟩, fun E _ _ env φ => ?_⟩
    · rw [PE.run, M.bind_of_ok r1.run, M.bind_of_ok r2.run, r3.run]
    · rw [v3, v2 E, r2.adds.ptVal r1.live.isPt, v1 E, PE.den,
        List.map_congr_left (fun p h => r1.adds.ptVal (hp p h).isPt env φ)]
  | sub a b iha ihb =>
    intro h hp hs
    simp only [PE.Safe, Bool.and_eq_true] at hs
    obtain ⟨x, h1, r1, v1⟩ := iha hp hs.1
    have e1 := ext_onlyAdds (C := C) r1.adds
    obtain ⟨y, h2, r2, v2⟩ := ihb (h := h1) (fun p h => e1.ptLive (hp p h)) hs.2
    have e2 := ext_onlyAdds (C := C) r2.adds
    obtain ⟨z, h3, r3, v3⟩ := ptSub_live hC (e2.ptLive r1.live) r2.live
    refine ⟨z, h3, ⟨?_, (r1.adds.trans r2.adds).trans r3.adds, r3.live⟩, fun E _ _ env φ => ?_⟩
    · rw [PE.run, M.bind_of_ok r1.run, M.bind_of_ok r2.run, r3.run]
    · rw [v3, v2 E, r2.adds.ptVal r1.live.isPt, v1 E, PE.den,
        List.map_congr_left (fun p h => r1.adds.ptVal (hp p h).isPt env φ)]
  | neg a iha =>
    intro h hp hs
    obtain ⟨x, h1, r1, v1⟩ := iha hp hs
    obtain ⟨z, h3, r3, v3⟩ := ptScale_live hC (Sym.num (-1)) r1.live
    refine ⟨z, h3, ⟨?_, r1.adds.trans r3.adds, r3.live⟩, fun E _ _ env φ => ?_⟩
    · rw [PE.run, M.bind_of_ok r1.run, ptNeg, r3.run]
    · rw [v3, v1 E, PE.den]; simp
  | scale s a iha =>
    intro h hp hs
    obtain ⟨x, h1, r1, v1⟩ := iha hp hs
    obtain ⟨z, h3, r3, v3⟩ := ptScale_live hC s r1.live
    refine ⟨z, h3, ⟨?_, r1.adds.trans r3.adds, r3.live⟩, fun E _ _ env φ => ?_⟩
    · rw [PE.run, M.bind_of_ok r1.run, r3.run]
    · rw [v3, v1 E, PE.den]
  | div a c iha =>
    intro h hp hs
    simp only [PE.Safe, Bool.and_eq_true, decide_eq_true_eq] at hs
    obtain ⟨x, h1, r1, v1⟩ := iha hp hs.1
    obtain ⟨z, h3, r3, v3⟩ := ptDiv_live hC c hs.2 r1.live
    refine ⟨z, h3, ⟨?_, r1.adds.trans r3.adds, r3.live⟩, fun E _ _ env φ => ?_⟩
    · rw [PE.run, M.bind_of_ok r1.run, r3.run]
    · rw [v3, v1 E, PE.den]

theorem EE.run_live {ps : List PtId} {es : List ExId} (a : EE) : ∀ {h : Heap}, (∀ p ∈ ps, h.PtLive p) →
    (∀ e ∈ es, h.ExLive e) → a.Safe ps.length es.length = true →
    ∃ q h', ExRes h (a.run C ps es h) q h' ∧
      ∀ (E : Type) [NormedAddCommGroup E] [InnerProductSpace ℝ E] (env) (φ : PtId → E) (ψ : ExId → ℝ),
        h'.exVal env φ ψ q = a.den env (ps.map (h.ptVal env φ)) (es.map (h.exVal env φ ψ)) := by
  induction a with
  | reg i =>
    intro h hp he hs
    have hi : i < es.length := by simpa [EE.Safe] using hs
    refine ⟨es[i], h, ⟨regGet_run hi h, onlyAdds_refl h, he _ (List.getElem_mem hi)⟩, fun E _ _ env φ ψ => ?_⟩
    rw [EE.den, getD_map _ _ _ hi]
  | inner a b =>
    intro h hp he hs
    simp only [EE.Safe, Bool.and_eq_true] at hs
    obtain ⟨x, h1, r1, v1⟩ := PE.run_live hC a hp hs.1
    have e1 := ext_onlyAdds (C := C) r1.adds
    obtain ⟨y, h2, r2, v2⟩ := PE.run_live hC b (h := h1) (fun p h => e1.ptLive (hp p h)) hs.2
    have e2 := ext_onlyAdds (C := C) r2.adds
    obtain ⟨z, h3, r3, v3⟩ := ptInner_live hC (e2.ptLive r1.live) r2.live
    refine ⟨z, h3, ⟨?_, (r1.adds.trans r2.adds).trans r3.adds, r3.live⟩, fun E _ _ env φ ψ => ?_⟩
    · rw [EE.run, M.bind_of_ok r1.run, M.bind_of_ok r2.run, r3.run]
    · rw [v3, v2 E, r2.adds.ptVal r1.live.isPt, v1 E, EE.den,
        List.map_congr_left (fun p h => r1.adds.ptVal (hp p h).isPt env φ)]
  | pow a n =>
    intro h hp he hs
    simp only [EE.Safe, Bool.and_eq_true, decide_eq_true_eq] at hs
    obtain ⟨hs, rfl⟩ := hs
    obtain ⟨x, h1, r1, v1⟩ := PE.run_live hC a hp hs
    obtain ⟨z, h3, r3, v3⟩ := ptSq_live hC r1.live
    refine ⟨z, h3, ⟨?_, r1.adds.trans r3.adds, r3.live⟩, fun E _ _ env φ ψ => ?_⟩
    · rw [EE.run, M.bind_of_ok r1.run, r3.run]
    · rw [v3, v1 E, EE.den]
  | add a b iha ihb =>
    intro h hp he hs
    simp only [EE.Safe, Bool.and_eq_true] at hs
    obtain ⟨x, h1, r1, v1⟩ := iha hp he hs.1
    have e1 := ext_onlyAdds (C := C) r1.adds
    obtain ⟨y, h2, r2, v2⟩ := ihb (h := h1) (fun p h => e1.ptLive (hp p h)) (fun p h => e1.exLive (he p h)) hs.2
    have e2 := ext_onlyAdds (C := C) r2.adds
    obtain ⟨z, h3, r3, v3⟩ := exAdd_live hC (e2.exLive r1.live) r2.live
    refine ⟨z, h3, ⟨?_, (r1.adds.trans r2.adds).trans r3.adds, r3.live⟩, fun E _ _ env φ ψ => ?_⟩
    · rw [EE.run, M.bind_of_ok r1.run, M.bind_of_ok r2.run, r3.run]
    · rw [v3, v2 E, r2.adds.exVal r1.live.isEx, v1 E, EE.den,
        List.map_congr_left (fun p h => r1.adds.ptVal (hp p h).isPt env φ),
        List.map_congr_left (fun p h => r1.adds.exVal (he p h).isEx env φ ψ)]
  | sub a b iha ihb =>
    intro h hp he hs
    simp only [EE.Safe, Bool.and_eq_true] at hs
    obtain ⟨x, h1, r1, v1⟩ := iha hp he hs.1
    have e1 := ext_onlyAdds (C := C) r1.adds
    obtain ⟨y, h2, r2, v2⟩ := ihb (h := h1) (fun p h => e1.ptLive (hp p h)) (fun p h => e1.exLive (he p h)) hs.2
    have e2 := ext_onlyAdds (C := C) r2.adds
    obtain ⟨z, h3, r3, v3⟩ := exSub_live hC (e2.exLive r1.live) r2.live
    refine ⟨z, h3, ⟨?_, (r1.adds.trans r2.adds).trans r3.adds, r3.live⟩, fun E _ _ env φ ψ => ?_⟩
    · rw [EE.run, M.bind_of_ok r1.run, M.bind_of_ok r2.run, r3.run]
    · rw [v3, v2 E, r2.adds.exVal r1.live.isEx, v1 E, EE.den,
        List.map_congr_left (fun p h => r1.adds.ptVal (hp p h).isPt env φ),
        List.map_congr_left (fun p h => r1.adds.exVal (he p h).isEx env φ ψ)]
  | neg a iha =>
    intro h hp he hs
    obtain ⟨x, h1, r1, v1⟩ := iha hp he hs
    obtain ⟨z, h3, r3, v3⟩ := exScale_live hC (Sym.num (-1)) r1.live
    refine ⟨z, h3, ⟨?_, r1.adds.trans r3.adds, r3.live⟩, fun E _ _ env φ ψ => ?_⟩
    · rw [EE.run, M.bind_of_ok r1.run, exNeg, r3.run]
    · rw [v3, v1 E, EE.den]; simp
  | scale s a iha =>
    intro h hp he hs
    obtain ⟨x, h1, r1, v1⟩ := iha hp he hs
    obtain ⟨z, h3, r3, v3⟩ := exScale_live hC s r1.live
    refine ⟨z, h3, ⟨?_, r1.adds.trans r3.adds, r3.live⟩, fun E _ _ env φ ψ => ?_⟩
    · rw [EE.run, M.bind_of_ok r1.run, r3.run]
    · rw [v3, v1 E, EE.den]
  | div a c iha =>
    intro h hp he hs
    simp only [EE.Safe, Bool.and_eq_true, decide_eq_true_eq] at hs
    obtain ⟨x, h1, r1, v1⟩ := iha hp he hs.1
    obtain ⟨z, h3, r3, v3⟩ := exDiv_live hC c hs.2 r1.live
    refine ⟨z, h3, ⟨?_, r1.adds.trans r3.adds, r3.live⟩, fun E _ _ env φ ψ => ?_⟩
    · rw [EE.run, M.bind_of_ok r1.run, r3.run]
    · rw [v3, v1 E, EE.den]; ring
  | addNum a c iha =>
    intro h hp he hs
    obtain ⟨x, h1, r1, v1⟩ := iha hp he hs
    obtain ⟨z, h3, r3, v3⟩ := exAddNum_live hC c r1.live
    refine ⟨z, h3, ⟨?_, r1.adds.trans r3.adds, r3.live⟩, fun E _ _ env φ ψ => ?_⟩
    · rw [EE.run, M.bind_of_ok r1.run, r3.run]
    · rw [v3, v1 E, EE.den]
  | subNum a c iha =>
    intro h hp he hs
    obtain ⟨x, h1, r1, v1⟩ := iha hp he hs
    obtain ⟨z, h3, r3, v3⟩ := exAddNum_live hC (-c) r1.live
    refine ⟨z, h3, ⟨?_, r1.adds.trans r3.adds, r3.live⟩, fun E _ _ env φ ψ => ?_⟩
    · rw [EE.run, M.bind_of_ok r1.run, exSubNum, r3.run]
    · rw [v3, v1 E, EE.den]; push_cast; ring
  | rsubNum c a iha =>
    intro h hp he hs
    obtain ⟨x, h1, r1, v1⟩ := iha hp he hs
    obtain ⟨y, h2, r2, v2⟩ := exAddNum_live hC (-c) r1.live
    obtain ⟨z, h3, r3, v3⟩ := exScale_live hC (Sym.num (-1)) r2.live
    refine ⟨z, h3, ⟨?_, (r1.adds.trans r2.adds).trans r3.adds, r3.live⟩, fun E _ _ env φ ψ => ?_⟩
    · rw [EE.run, M.bind_of_ok r1.run, exRSubNum, M.bind_of_ok (show exSubNum C x c h1 = _ from r2.run), exNeg, r3.run]
    · rw [v3, v2, v1 E, EE.den]; push_cast [Sym.eval_num]; ring
end

/-- creation of sums of functions: no sample, no leaf is created -/
structure FnAdds (C : CAS) (h h' : Heap) : Prop where
  ext : Ext C h h'
  wf : WF C h'
  pts : h'.pts = h.pts
  exs : h'.exs = h.exs
  leafPts : h'.leafPts = h.leafPts
  leafExs : h'.leafExs = h.leafExs
  old : ∀ f : ℕ, f < h.fns.length → h'.fns[f]? = h.fns[f]?
  new : ∃ l, h'.fnList = h.fnList ++ l ∧ ∀ f ∈ l, ∃ o, h'.fns[f]? = some o ∧ o.leaf = false ∧ o.points = []
  len : h.fns.length ≤ h'.fns.length

theorem FnAdds.refl (w : WF C h) : FnAdds C h h :=
  ⟨Ext.refl h, w, rfl, rfl, rfl, rfl, fun _ _ => rfl, ⟨[], by simp⟩, le_rfl⟩

theorem FnAdds.trans {h1 h2 h3 : Heap} (a : FnAdds C h1 h2) (b : FnAdds C h2 h3) : FnAdds C h1 h3 := by
  refine ⟨a.ext.trans b.ext, b.wf, b.pts.trans a.pts, b.exs.trans a.exs, b.leafPts.trans a.leafPts, b.leafExs.trans a.leafExs,
    fun f hf => (b.old f (by have := a.len; omega)).trans (a.old f hf), ?_, a.len.trans b.len⟩
  obtain ⟨l1, e1, p1⟩ := a.new
  obtain ⟨l2, e2, p2⟩ := b.new
  refine ⟨l1 ++ l2, by rw [e2, e1, List.append_assoc], fun f hf => ?_⟩
  rcases List.mem_append.1 hf with hf | hf
  · obtain ⟨o, ho, hl⟩ := p1 f hf
    exact ⟨o, by rw [b.old f (List.getElem?_eq_some_iff.1 ho).1, ho], hl⟩
  · exact p2 f hf

/-- weights of a function on the declared functions `D` -/
noncomputable def fnW (D : List FnId) (h : Heap) (f : FnId) : ℕ →₀ ℝ :=
  match h.fns[f]? with
  | some o => Dict.den (fun w : ℚ => (w : ℝ)) (fun k => Finsupp.single (D.idxOf k) (1 : ℝ)) o.dict
  | none => 0

theorem fnW_of {D : List FnId} {f : ℕ} {o : FnObj} (ho : h.fns[f]? = some o) :
    fnW D h f = Dict.den (fun w : ℚ => (w : ℝ)) (fun k => Finsupp.single (D.idxOf k) (1 : ℝ)) o.dict := by
  simp [fnW, ho]

theorem fnW_ext (e : Ext C h h') {f : ℕ} (hf : f < h.fns.length) (D : List FnId) : fnW D h' f = fnW D h f := by
  have ho := List.getElem?_eq_getElem hf
  obtain ⟨o', ho', fe⟩ := e.fns f _ ho
  rw [fnW_of ho, fnW_of ho']
  rcases fe.dict with hd | hd
  · rw [hd]
  · rw [hd, den_pruneW]

theorem addFn_adds (w : WF C h) {d : Dict FnId ℚ} {r : Bool} (hd : d.NodupKeys)
    (hk : ∀ k ∈ d.keys, k ∈ h.fnList ∧ ∃ ok, h.fns[k]? = some ok ∧ ok.leaf = true ∧ (r = true → ok.reuse = true)) :
    FnAdds C h (h.addFn d r) := by
  refine ⟨ext_addFn h d r, w.addFn d r hd hk, rfl, rfl, rfl, rfl, ?_, ⟨[h.fns.length], rfl, ?_⟩, ?_⟩
  · intro f hf
    simp [Heap.addFn, List.getElem?_append_left hf]
  · intro f hf
    simp at hf; subst hf
    exact ⟨_, by simp [Heap.addFn]; rfl, rfl, rfl⟩
  · simp [Heap.addFn]

theorem dict_leaf_keys (w : WF C h) {f : ℕ} (hf : f ∈ h.fnList) {o : FnObj} (ho : h.fns[f]? = some o) :
    o.dict.NodupKeys ∧ ∀ k ∈ o.dict.keys, k ∈ h.fnList ∧ ∃ ok, h.fns[k]? = some ok ∧ ok.leaf = true ∧
      (o.reuse = true → ok.reuse = true) := by
  obtain ⟨o', ho', ok⟩ := w.fn f hf
  obtain rfl : o' = o := by rw [ho] at ho'; exact (Option.some.inj ho').symm
  refine ⟨ok.nodup, fun k hk => ?_⟩
  cases hl : o'.leaf with
  | true =>
    rw [ok.leafDict hl] at hk
    simp at hk; subst hk
    exact ⟨hf, o', ho, hl, id⟩
  | false => exact ok.sumKeys hl k hk

theorem fnAdd_adds (w : WF C h) {f g : ℕ} (hf : f ∈ h.fnList) (hg : g ∈ h.fnList) :
    ∃ q h', fnAdd f g h = .ok (q, h') ∧ FnAdds C h h' ∧ q ∈ h'.fnList ∧
      ∀ D, fnW D h' q = fnW D h f + fnW D h g := by
  obtain ⟨a, ha, -⟩ := w.fn f hf
  obtain ⟨b, hb, -⟩ := w.fn g hg
  obtain ⟨na, ka⟩ := dict_leaf_keys w hf ha
  obtain ⟨nb, kb⟩ := dict_leaf_keys w hg hb
  refine ⟨h.fns.length, h.addFn (Dict.merge (· + ·) a.dict b.dict) (a.reuse && b.reuse), ?_, addFn_adds w ?_ ?_, ?_, ?_⟩
  · have g1 : getFn f h = .ok (a, h) := by simp [getFn, ha]
    have g2 : getFn g h = .ok (b, h) := by simp [getFn, hb]
    rw [fnAdd, M.bind_of_ok g1, M.bind_of_ok g2, newFn_run]
  · exact Dict.nodup_merge _ na nb
  · intro k hk
    rcases (Dict.mem_keys_merge _ na nb k).1 hk with hk | hk
    · obtain ⟨h1, ok, h2, h3, h4⟩ := ka k hk
      exact ⟨h1, ok, h2, h3, fun hr => h4 (by simp at hr; exact hr.1)⟩
    · obtain ⟨h1, ok, h2, h3, h4⟩ := kb k hk
      exact ⟨h1, ok, h2, h3, fun hr => h4 (by simp at hr; exact hr.2)⟩
  · simp [Heap.addFn]
  · intro D
    rw [fnW_of (o := ⟨false, none, .base, a.reuse && b.reuse, Dict.merge (· + ·) a.dict b.dict, [], [], []⟩)
      (by simp [Heap.addFn]), fnW_of ha, fnW_of hb]
    exact Dict.den_merge _ _ (fun x y => by push_cast; rfl) na nb

theorem fnScale_adds (w : WF C h) {f : ℕ} (c : ℚ) (hf : f ∈ h.fnList) :
    ∃ q h', fnScale c f h = .ok (q, h') ∧ FnAdds C h h' ∧ q ∈ h'.fnList ∧
      ∀ D, fnW D h' q = (c : ℝ) • fnW D h f := by
  obtain ⟨a, ha, -⟩ := w.fn f hf
  obtain ⟨na, ka⟩ := dict_leaf_keys w hf ha
  refine ⟨h.fns.length, h.addFn (a.dict.mapVals fun v => v * c) a.reuse, ?_, addFn_adds w ?_ ?_, ?_, ?_⟩
  · have g1 : getFn f h = .ok (a, h) := by simp [getFn, ha]
    rw [fnScale, M.bind_of_ok g1, newFn_run]
  · simpa [Dict.NodupKeys] using na
  · intro k hk
    rw [Dict.keys_mapVals] at hk
    exact ka k hk
  · simp [Heap.addFn]
  · intro D
    rw [fnW_of (o := ⟨false, none, .base, a.reuse, a.dict.mapVals fun v => v * c, [], [], []⟩)
      (by simp [Heap.addFn]), fnW_of ha]
    exact Dict.den_mapVals (fun w : ℚ => (w : ℝ)) _ (f := fun v => v * c) (fun x => by push_cast; rfl) a.dict

theorem FE.run_live {fs : List FnId} (a : FE) : ∀ {h : Heap}, WF C h → (∀ f ∈ fs, f ∈ h.fnList) → a.Safe fs.length = true →
    ∃ q h', a.run fs h = .ok (q, h') ∧ FnAdds C h h' ∧ q ∈ h'.fnList ∧ ∀ D, fnW D h' q = a.den (fs.map (fnW D h)) := by
  induction a with
  | reg i =>
    intro h w hf hs
    have hi : i < fs.length := by simpa [FE.Safe] using hs
    refine ⟨fs[i], h, regGet_run hi h, FnAdds.refl w, hf _ (List.getElem_mem hi), fun D => ?_⟩
    rw [FE.den, getD_map _ _ _ hi]
  | add a b iha ihb =>
    intro h w hf hs
    simp only [FE.Safe, Bool.and_eq_true] at hs
    obtain ⟨x, h1, r1, a1, m1, v1⟩ := iha w hf hs.1
    obtain ⟨y, h2, r2, a2, m2, v2⟩ := ihb a1.wf (fun f h => a1.ext.fnList.subset (hf f h)) hs.2
    obtain ⟨z, h3, r3, a3, m3, v3⟩ := fnAdd_adds a2.wf (a2.ext.fnList.subset m1) m2
    refine ⟨z, h3, ?_, (a1.trans a2).trans a3, m3, fun D => ?_⟩
    · rw [FE.run, M.bind_of_ok r1, M.bind_of_ok r2, r3]
    · rw [v3, v2, fnW_ext a2.ext (a1.wf.fn_lt m1), v1, FE.den,
        List.map_congr_left (fun f h => fnW_ext a1.ext (w.fn_lt (hf f h)) D)]
  | sub a b iha ihb =>
    intro h w hf hs
    simp only [FE.Safe, Bool.and_eq_true] at hs
    obtain ⟨x, h1, r1, a1, m1, v1⟩ := iha w hf hs.1
    obtain ⟨y, h2, r2, a2, m2, v2⟩ := ihb a1.wf (fun f h => a1.ext.fnList.subset (hf f h)) hs.2
    obtain ⟨y', h3, r3, a3, m3, v3⟩ := fnScale_adds a2.wf (-1) m2
    obtain ⟨z, h4, r4, a4, m4, v4⟩ := fnAdd_adds a3.wf ((a2.trans a3).ext.fnList.subset m1) m3
    refine ⟨z, h4, ?_, ((a1.trans a2).trans a3).trans a4, m4, fun D => ?_⟩
    · rw [FE.run, M.bind_of_ok r1, M.bind_of_ok r2, fnSub, M.bind_of_ok (show fnNeg y h2 = _ from r3), r4]
    · rw [v4, v3, v2, fnW_ext (a2.trans a3).ext (a1.wf.fn_lt m1), v1, FE.den,
        List.map_congr_left (fun f h => fnW_ext a1.ext (w.fn_lt (hf f h)) D)]
      simp [sub_eq_add_neg]
  | neg a iha =>
    intro h w hf hs
    obtain ⟨x, h1, r1, a1, m1, v1⟩ := iha w hf hs
    obtain ⟨z, h3, r3, a3, m3, v3⟩ := fnScale_adds a1.wf (-1) m1
    refine ⟨z, h3, ?_, a1.trans a3, m3, fun D => ?_⟩
    · rw [FE.run, M.bind_of_ok r1, fnNeg, r3]
    · rw [v3, v1, FE.den]; simp
  | scale c a iha =>
    intro h w hf hs
    obtain ⟨x, h1, r1, a1, m1, v1⟩ := iha w hf hs
    obtain ⟨z, h3, r3, a3, m3, v3⟩ := fnScale_adds a1.wf c m1
    refine ⟨z, h3, ?_, a1.trans a3, m3, fun D => ?_⟩
    · rw [FE.run, M.bind_of_ok r1, r3]
    · rw [v3, v1, FE.den]
  | div a c iha =>
    intro h w hf hs
    simp only [FE.Safe, Bool.and_eq_true, decide_eq_true_eq] at hs
    obtain ⟨x, h1, r1, a1, m1, v1⟩ := iha w hf hs.1
    obtain ⟨z, h3, r3, a3, m3, v3⟩ := fnScale_adds a1.wf (1 / c) m1
    refine ⟨z, h3, ?_, a1.trans a3, m3, fun D => ?_⟩
    · rw [FE.run, M.bind_of_ok r1, fnDiv, if_neg hs.2, r3]
    · rw [v3, v1, FE.den]; simp

end Verif
