import Verif.Proofs.PointExpr
import Verif.Proofs.RefCAS

/-!
# C01, C02, C03: arithmetic of Points and Expressions

For every computer algebra system `C` meeting the contract, every heap `h` with python dictionaries, all operands:
the result exists, it denotes the right vector or number for all values `env` of the symbols and all values `φ`, `ψ` of the leaves,
and the only change of the heap is the creation of new objects (`OnlyAdds`), so nothing that existed changes its meaning.
-/

namespace Verif
open scoped InnerProductSpace

variable {E : Type} [NormedAddCommGroup E] [InnerProductSpace ℝ E]
variable {C : CAS} {h : Heap} {p q : PtId} {e f : ExId}

/-- What every arithmetic operation returning a Point guarantees, given the vector it must denote. -/
def PtResult (h : Heap) (r : Except Err (PtId × Heap)) (spec : (Name → ℝ) → (PtId → E) → E) : Prop :=
  ∃ x h', r = .ok (x, h') ∧ h.OnlyAdds h' ∧ h'.DictOk ∧ h'.IsPt x ∧ ¬ h.IsPt x ∧
    ∀ (env : Name → ℝ) (φ : PtId → E), h'.ptVal env φ x = spec env φ

/-- What every arithmetic operation returning an Expression guarantees, given the number it must denote. -/
def ExResult (h : Heap) (r : Except Err (ExId × Heap)) (spec : (Name → ℝ) → (PtId → E) → (ExId → ℝ) → ℝ) : Prop :=
  ∃ x h', r = .ok (x, h') ∧ h.OnlyAdds h' ∧ h'.DictOk ∧ h'.IsEx x ∧ ¬ h.IsEx x ∧
    ∀ (env : Name → ℝ) (φ : PtId → E) (ψ : ExId → ℝ), h'.exVal env φ ψ x = spec env φ ψ

theorem C01_add (hC : C.Lawful) (hh : h.DictOk) (hp : h.IsPt p) (hq : h.IsPt q) :
    PtResult (E := E) h (ptAdd C p q h) (fun env φ => h.ptVal env φ p + h.ptVal env φ q) := by
  obtain ⟨a, ha⟩ := hp.get
  obtain ⟨b, hb⟩ := hq.get
  refine ⟨_, _, ptAdd_run ha hb, Heap.onlyAdds_pushPt _ _,
    hh.pushPt (Dict.nodup_prune _ (Dict.nodup_merge _ (hh.pt ha) (hh.pt hb))), ?_, ?_, ?_⟩
  · simp [Heap.IsPt, Heap.pushPt]
  · simp [Heap.IsPt]
  · intro env φ; beta_reduce
    rw [Heap.ptVal_pushPt, Dict.den_prune _ _ (isZeroS_eval hC env),
      Dict.den_merge _ _ (plusS_eval hC env) (hh.pt ha) (hh.pt hb), Heap.ptVal_of ha, Heap.ptVal_of hb]

theorem C01_scale (hC : C.Lawful) (hh : h.DictOk) (s : Sym) (hp : h.IsPt p) :
    PtResult (E := E) h (ptScale C s p h) (fun env φ => s.eval env • h.ptVal env φ p) := by
  obtain ⟨a, ha⟩ := hp.get
  refine ⟨_, _, ptScale_run s ha, Heap.onlyAdds_pushPt _ _,
    hh.pushPt (by simpa [Dict.NodupKeys] using hh.pt ha), ?_, ?_, ?_⟩
  · simp [Heap.IsPt, Heap.pushPt]
  · simp [Heap.IsPt]
  · intro env φ; beta_reduce
    rw [Heap.ptVal_pushPt, Dict.den_mapVals (c := s.eval env) _ _ (fun v => timesS_eval hC env v s), Heap.ptVal_of ha]

theorem C01_neg (hC : C.Lawful) (hh : h.DictOk) (hp : h.IsPt p) :
    PtResult (E := E) h (ptNeg C p h) (fun env φ => - h.ptVal env φ p) := by
  obtain ⟨x, h', h1, h2, h3, h4, h5, h6⟩ := C01_scale (E := E) hC hh (Sym.num (-1)) hp
  exact ⟨x, h', h1, h2, h3, h4, h5, fun env φ => by beta_reduce at *; rw [h6]; simp⟩

theorem C01_sub (hC : C.Lawful) (hh : h.DictOk) (hp : h.IsPt p) (hq : h.IsPt q) :
    PtResult (E := E) h (ptSub C p q h) (fun env φ => h.ptVal env φ p - h.ptVal env φ q) := by
  obtain ⟨x, h', h1, h2, h3, h4, h5, h6⟩ := C01_neg (E := E) hC hh hq
  obtain ⟨y, h'', g1, g2, g3, g4, g5, g6⟩ := C01_add (E := E) hC h3 (h2.isPt hp) h4
  refine ⟨y, h'', ?_, h2.trans g2, g3, g4, fun hy => g5 (h2.isPt hy), fun env φ => ?_⟩
  · rw [ptSub, M.bind_of_ok h1, g1]
  · beta_reduce at *; rw [g6, h6, h2.ptVal hp]; abel

theorem C01_div (hC : C.Lawful) (hh : h.DictOk) (c : ℚ) (hc : c ≠ 0) (hp : h.IsPt p) :
    PtResult (E := E) h (ptDiv C p c h) (fun env φ => (c : ℝ)⁻¹ • h.ptVal env φ p) := by
  obtain ⟨x, h', h1, h2, h3, h4, h5, h6⟩ := C01_scale (E := E) hC hh (Sym.num (1 / c)) hp
  refine ⟨x, h', by rw [ptDiv, if_neg hc, h1], h2, h3, h4, h5, fun env φ => by beta_reduce at *; rw [h6]; simp⟩

theorem C01_div_zero (p : PtId) : ptDiv C p 0 h = .error .zeroDivision := by simp [ptDiv]

/-- Dynamic typing: adding anything but a Point fails the assertion. -/
theorem C01_add_type (v : PyVal) (hv : ∀ q, v ≠ .pt q) : ptAddVal C p v h = .error .assertion := by
  cases v <;> simp_all [ptAddVal]

theorem C02_inner (hC : C.Lawful) (hh : h.DictOk) (hp : h.IsPt p) (hq : h.IsPt q) :
    ExResult (E := E) h (ptInner C p q h) (fun env φ _ => ⟪h.ptVal env φ p, h.ptVal env φ q⟫_ℝ) := by
  obtain ⟨a, ha⟩ := hp.get
  obtain ⟨b, hb⟩ := hq.get
  refine ⟨_, _, ptInner_run ha hb, Heap.onlyAdds_pushEx _ _, hh.pushEx (innerDict_nodup _ _), ?_, ?_, ?_⟩
  · simp [Heap.IsEx, Heap.pushEx]
  · simp [Heap.IsEx]
  · intro env φ ψ; beta_reduce
    rw [Heap.exVal_pushEx, den_innerDict hC, Heap.ptVal_of ha, Heap.ptVal_of hb]

theorem C02_sq (hC : C.Lawful) (hh : h.DictOk) (hp : h.IsPt p) :
    ExResult (E := E) h (ptPow C p 2 h) (fun env φ _ => ‖h.ptVal env φ p‖ ^ 2) := by
  obtain ⟨x, h', h1, h2, h3, h4, h5, h6⟩ := C02_inner (E := E) hC hh hp hp
  refine ⟨x, h', ?_, h2, h3, h4, h5, fun env φ ψ => by beta_reduce at *; rw [h6, real_inner_self_eq_norm_sq]⟩
  simp [ptPow, M.bind_run, h1]

theorem C02_pow_reject (n : ℚ) (hn : n ≠ 2) : ptPow C p n h = .error .assertion := by
  simp [ptPow, hn, M.bind_run, M.assert]

/-- Products in both orders denote the same number. -/
theorem C02_symm (hC : C.Lawful) (hh : h.DictOk) (hp : h.IsPt p) (hq : h.IsPt q) :
    ∃ x h' y h'', ptInner C p q h = .ok (x, h') ∧ ptInner C q p h = .ok (y, h'') ∧
      ∀ (env : Name → ℝ) (φ : PtId → E) (ψ : ExId → ℝ),
        h'.exVal env φ ψ x = h''.exVal env φ ψ y := by
  obtain ⟨x, h', h1, -, -, -, -, h6⟩ := C02_inner (E := E) hC hh hp hq
  obtain ⟨y, h'', g1, -, -, -, -, g6⟩ := C02_inner (E := E) hC hh hq hp
  exact ⟨x, h', y, h'', h1, g1, fun env φ ψ => by beta_reduce at *; rw [h6, g6, real_inner_comm]⟩

/-- Dispatch of `*` on a Point: scalars scale, Points give inner products, anything else is a TypeError. -/
theorem C02_mul_dispatch :
    (∀ c, ptMulVal C p (.num c) h = (ptScale C (Sym.num c) p h).map fun r => (PyVal.pt r.1, r.2)) ∧
    (∀ s, ptMulVal C p (.sym s) h = (ptScale C s p h).map fun r => (PyVal.pt r.1, r.2)) ∧
    (∀ q, ptMulVal C p (.pt q) h = (ptInner C p q h).map fun r => (PyVal.ex r.1, r.2)) ∧
    (∀ e, ptMulVal C p (.ex e) h = .error .type) ∧ ptMulVal C p .other h = .error .type := by
  refine ⟨fun c => ?_, fun s => ?_, fun q => ?_, fun e => rfl, rfl⟩
  · simp only [ptMulVal, M.bind_run]; cases ptScale C (Sym.num c) p h <;> rfl
  · simp only [ptMulVal, M.bind_run]; cases ptScale C s p h <;> rfl
  · simp only [ptMulVal, M.bind_run]; cases ptInner C p q h <;> rfl

theorem C03_add (hC : C.Lawful) (hh : h.DictOk) (he : h.IsEx e) (hf : h.IsEx f) :
    ExResult (E := E) h (exAdd C e f h) (fun env φ ψ => h.exVal env φ ψ e + h.exVal env φ ψ f) := by
  obtain ⟨a, ha⟩ := he.get
  obtain ⟨b, hb⟩ := hf.get
  refine ⟨_, _, exAdd_run ha hb, Heap.onlyAdds_pushEx _ _,
    hh.pushEx (Dict.nodup_merge _ (hh.ex ha) (hh.ex hb)), ?_, ?_, ?_⟩
  · simp [Heap.IsEx, Heap.pushEx]
  · simp [Heap.IsEx]
  · intro env φ ψ; beta_reduce
    rw [Heap.exVal_pushEx, Dict.den_merge _ _ (plusS_eval hC env) (hh.ex ha) (hh.ex hb), Heap.exVal_of ha,
      Heap.exVal_of hb]

theorem C03_addNum (hC : C.Lawful) (hh : h.DictOk) (he : h.IsEx e) (c : ℚ) :
    ExResult (E := E) h (exAddNum C e c h) (fun env φ ψ => h.exVal env φ ψ e + c) := by
  obtain ⟨a, ha⟩ := he.get
  have hn : Dict.NodupKeys [(ExKey.one, Sym.num c)] := by simp [Dict.NodupKeys]
  refine ⟨_, _, exAddNum_run c ha, Heap.onlyAdds_pushEx _ _, hh.pushEx (Dict.nodup_merge _ (hh.ex ha) hn), ?_, ?_, ?_⟩
  · simp [Heap.IsEx, Heap.pushEx]
  · simp [Heap.IsEx]
  · intro env φ ψ; beta_reduce
    rw [Heap.exVal_pushEx, Dict.den_merge _ _ (plusS_eval hC env) (hh.ex ha) hn, Heap.exVal_of ha]
    simp [keyVal]

theorem C03_scale (hC : C.Lawful) (hh : h.DictOk) (s : Sym) (he : h.IsEx e) :
    ExResult (E := E) h (exScale C s e h) (fun env φ ψ => s.eval env * h.exVal env φ ψ e) := by
  obtain ⟨a, ha⟩ := he.get
  refine ⟨_, _, exScale_run s ha, Heap.onlyAdds_pushEx _ _,
    hh.pushEx (by simpa [Dict.NodupKeys] using hh.ex ha), ?_, ?_, ?_⟩
  · simp [Heap.IsEx, Heap.pushEx]
  · simp [Heap.IsEx]
  · intro env φ ψ; beta_reduce
    rw [Heap.exVal_pushEx, Dict.den_mapVals (c := s.eval env) _ _ (fun v => timesS_eval hC env v s), Heap.exVal_of ha,
      smul_eq_mul]

theorem C03_neg (hC : C.Lawful) (hh : h.DictOk) (he : h.IsEx e) :
    ExResult (E := E) h (exNeg C e h) (fun env φ ψ => - h.exVal env φ ψ e) := by
  obtain ⟨x, h', h1, h2, h3, h4, h5, h6⟩ := C03_scale (E := E) hC hh (Sym.num (-1)) he
  exact ⟨x, h', h1, h2, h3, h4, h5, fun env φ ψ => by beta_reduce at *; rw [h6]; simp⟩

theorem C03_sub (hC : C.Lawful) (hh : h.DictOk) (he : h.IsEx e) (hf : h.IsEx f) :
    ExResult (E := E) h (exSub C e f h) (fun env φ ψ => h.exVal env φ ψ e - h.exVal env φ ψ f) := by
  obtain ⟨x, h', h1, h2, h3, h4, h5, h6⟩ := C03_neg (E := E) hC hh hf
  obtain ⟨y, h'', g1, g2, g3, g4, g5, g6⟩ := C03_add (E := E) hC h3 (h2.isEx he) h4
  refine ⟨y, h'', ?_, h2.trans g2, g3, g4, fun hy => g5 (h2.isEx hy), fun env φ ψ => ?_⟩
  · rw [exSub, M.bind_of_ok h1, g1]
  · beta_reduce at *; rw [g6, h6, h2.exVal he]; ring

theorem C03_subNum (hC : C.Lawful) (hh : h.DictOk) (he : h.IsEx e) (c : ℚ) :
    ExResult (E := E) h (exSubNum C e c h) (fun env φ ψ => h.exVal env φ ψ e - c) := by
  obtain ⟨x, h', h1, h2, h3, h4, h5, h6⟩ := C03_addNum (E := E) hC hh he (-c)
  exact ⟨x, h', h1, h2, h3, h4, h5, fun env φ ψ => by beta_reduce at *; rw [h6]; push_cast; ring⟩

theorem C03_rsubNum (hC : C.Lawful) (hh : h.DictOk) (c : ℚ) (he : h.IsEx e) :
    ExResult (E := E) h (exRSubNum C c e h) (fun env φ ψ => c - h.exVal env φ ψ e) := by
  obtain ⟨x, h', h1, h2, h3, h4, h5, h6⟩ := C03_subNum (E := E) hC hh he c
  obtain ⟨y, h'', g1, g2, g3, g4, g5, g6⟩ := C03_neg (E := E) hC h3 h4
  refine ⟨y, h'', ?_, h2.trans g2, g3, g4, fun hy => g5 (h2.isEx hy), fun env φ ψ => ?_⟩
  · rw [exRSubNum, M.bind_of_ok h1, g1]
  · beta_reduce at *; rw [g6, h6]; ring

theorem C03_div (hC : C.Lawful) (hh : h.DictOk) (c : ℚ) (hc : c ≠ 0) (he : h.IsEx e) :
    ExResult (E := E) h (exDiv C e c h) (fun env φ ψ => h.exVal env φ ψ e / c) := by
  obtain ⟨x, h', h1, h2, h3, h4, h5, h6⟩ := C03_scale (E := E) hC hh (Sym.num (1 / c)) he
  refine ⟨x, h', by rw [exDiv, if_neg hc, h1], h2, h3, h4, h5, fun env φ ψ => by beta_reduce at *; rw [h6]; simp; ring⟩

theorem C03_div_zero (e : ExId) : exDiv C e 0 h = .error .zeroDivision := by simp [exDiv]

/-- Adding a symbolic scalar (or a Point, or anything else) to an Expression is a TypeError. -/
theorem C03_add_type (v : PyVal) (hv : ∀ f, v ≠ .ex f) (hv' : ∀ c, v ≠ .num c) :
    exAddVal C e v h = .error .type := by
  cases v <;> simp_all [exAddVal]

/-- Multiplying an Expression by anything but a scalar fails the assertion. -/
theorem C03_mul_type (v : PyVal) (hv : ∀ s, v ≠ .sym s) (hv' : ∀ c, v ≠ .num c) :
    exMulVal C e v h = .error .assertion := by
  cases v <;> simp_all [exMulVal]

/-! ### Non-vacuity: a concrete heap with two leaf points and one leaf value -/

/-- two leaf points, `alpha * x0 + x1`, and one leaf expression -/
def exampleHeap : Heap :=
  match (do let x ← newLeafPt; let y ← newLeafPt; let s ← ptScale refCAS (Sym.var "alpha") x
            let _ ← ptAdd refCAS s y; newLeafEx : M ExId) Heap.empty with
  | .ok (_, h) => h
  | .error _ => Heap.empty

example : refCAS.Lawful := refCAS_lawful
example : exampleHeap.pts.map (fun o => o.dict.keys) = [[0], [1], [0], [0, 1]] ∧ exampleHeap.exs.length = 1 := by
  decide +kernel
theorem exampleHeap_ok : exampleHeap.DictOk ∧ exampleHeap.IsPt 3 ∧ exampleHeap.IsEx 0 := by
  refine ⟨⟨?_, ?_⟩, ?_, ?_⟩ <;> simp only [Heap.IsPt, Heap.IsEx, Dict.NodupKeys] <;> decide +kernel
example : PtResult (E := E) exampleHeap (ptSub refCAS 3 1 exampleHeap)
    (fun env φ => exampleHeap.ptVal env φ 3 - exampleHeap.ptVal env φ 1) :=
  C01_sub refCAS_lawful exampleHeap_ok.1 exampleHeap_ok.2.1 (by unfold Heap.IsPt; decide +kernel)
/-- `x - x` is the empty combination after pruning -/
example : (match ptSub refCAS 3 3 exampleHeap with | .ok (r, h) => (h.pts[r]?).map PtObj.dict | .error _ => none)
    = some [] := by decide +kernel

end Verif
