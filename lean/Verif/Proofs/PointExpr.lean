import Verif.Model.PointExpr
import Verif.Proofs.Dict

namespace Verif
open scoped InnerProductSpace

namespace M
@[simp] theorem pure_run {α} (a : α) (h : Heap) : (Pure.pure a : M α) h = .ok (a, h) := rfl
theorem bind_run {α β} (x : M α) (f : α → M β) (h : Heap) : (x >>= f) h = match x h with
  | .ok (a, h') => f a h'
  | .error e => .error e := rfl
theorem bind_ok {α β} {x : M α} {f : α → M β} {h h2 : Heap} {b : β} :
    (x >>= f) h = .ok (b, h2) ↔ ∃ a h1, x h = .ok (a, h1) ∧ f a h1 = .ok (b, h2) := by
  rw [bind_run]
  cases hx : x h with
  | ok ah => obtain ⟨a, h1⟩ := ah; simp
  | error e => simp
theorem bind_of_ok {α β} {x : M α} {f : α → M β} {h h1 : Heap} {a : α} (hx : x h = .ok (a, h1)) :
    (x >>= f) h = f a h1 := by rw [bind_run, hx]
@[simp] theorem throw_run {α} (e : Err) (h : Heap) : (M.throw e : M α) h = .error e := rfl
@[simp] theorem assert_true_run (h : Heap) : M.assert true h = .ok ((), h) := rfl
end M

namespace Heap

/-- the heap after `newPt d` -/
def pushPt (h : Heap) (d : Dict PtId Sym) : Heap := { h with pts := h.pts ++ [⟨false, none, d⟩] }
/-- the heap after `newEx d` -/
def pushEx (h : Heap) (d : Dict ExKey Sym) : Heap := { h with exs := h.exs ++ [⟨false, none, d⟩] }

theorem onlyAdds_refl (h : Heap) : h.OnlyAdds h := ⟨[], [], by simp⟩
theorem OnlyAdds.trans {h1 h2 h3 : Heap} (a : h1.OnlyAdds h2) (b : h2.OnlyAdds h3) : h1.OnlyAdds h3 := by
  obtain ⟨ps, es, rfl, hp, he⟩ := a
  obtain ⟨ps', es', rfl, hp', he'⟩ := b
  refine ⟨ps ++ ps', es ++ es', by simp, ?_, ?_⟩
  · intro o ho; rcases List.mem_append.1 ho with h | h
    · exact hp o h
    · exact hp' o h
  · intro o ho; rcases List.mem_append.1 ho with h | h
    · exact he o h
    · exact he' o h
theorem onlyAdds_pushPt (h : Heap) (d) : h.OnlyAdds (h.pushPt d) := ⟨[⟨false, none, d⟩], [], by simp [pushPt]⟩
theorem onlyAdds_pushEx (h : Heap) (d) : h.OnlyAdds (h.pushEx d) := ⟨[], [⟨false, none, d⟩], by simp [pushEx]⟩

theorem OnlyAdds.pts {h h' : Heap} (a : h.OnlyAdds h') {p : ℕ} {o : PtObj} (hp : h.pts[p]? = some o) : h'.pts[p]? = some o := by
  obtain ⟨ps, es, rfl, -⟩ := a
  rw [List.getElem?_append_left (List.getElem?_eq_some_iff.1 hp).1]; exact hp
theorem OnlyAdds.exs {h h' : Heap} (a : h.OnlyAdds h') {p : ℕ} {o : ExObj} (hp : h.exs[p]? = some o) : h'.exs[p]? = some o := by
  obtain ⟨ps, es, rfl, -⟩ := a
  rw [List.getElem?_append_left (List.getElem?_eq_some_iff.1 hp).1]; exact hp
theorem OnlyAdds.isPt {h h' : Heap} (a : h.OnlyAdds h') {p : ℕ} (hp : h.IsPt p) : h'.IsPt p := by
  obtain ⟨ps, es, rfl, -⟩ := a
  exact lt_of_lt_of_le hp (by simp)
theorem OnlyAdds.isEx {h h' : Heap} (a : h.OnlyAdds h') {p : ℕ} (hp : h.IsEx p) : h'.IsEx p := by
  obtain ⟨ps, es, rfl, -⟩ := a
  exact lt_of_lt_of_le hp (by simp)

section
variable {E : Type} [NormedAddCommGroup E] [InnerProductSpace ℝ E]

theorem ptVal_of {h : Heap} {p : ℕ} {o : PtObj} (hp : h.pts[p]? = some o) (env) (φ : PtId → E) :
    h.ptVal env φ p = o.dict.den (Sym.eval env) φ := by simp [ptVal, hp]
theorem exVal_of {h : Heap} {p : ℕ} {o : ExObj} (hp : h.exs[p]? = some o) (env) (φ : PtId → E) (ψ) :
    h.exVal env φ ψ p = o.dict.den (Sym.eval env) (keyVal φ ψ) := by simp [exVal, hp]

theorem OnlyAdds.ptVal {h h' : Heap} (a : h.OnlyAdds h') {p : ℕ} (hp : h.IsPt p) (env) (φ : PtId → E) :
    h'.ptVal env φ p = h.ptVal env φ p := by
  have := List.getElem?_eq_getElem hp
  rw [ptVal_of this, ptVal_of (a.pts this)]
theorem OnlyAdds.exVal {h h' : Heap} (a : h.OnlyAdds h') {p : ℕ} (hp : h.IsEx p) (env) (φ : PtId → E) (ψ) :
    h'.exVal env φ ψ p = h.exVal env φ ψ p := by
  have := List.getElem?_eq_getElem hp
  rw [exVal_of this, exVal_of (a.exs this)]

theorem pushPt_get (h : Heap) (d) : (h.pushPt d).pts[h.pts.length]? = some ⟨false, none, d⟩ := by simp [pushPt]
theorem pushEx_get (h : Heap) (d) : (h.pushEx d).exs[h.exs.length]? = some ⟨false, none, d⟩ := by simp [pushEx]
theorem ptVal_pushPt (h : Heap) (d) (env) (φ : PtId → E) :
    (h.pushPt d).ptVal env φ h.pts.length = d.den (Sym.eval env) φ := ptVal_of (pushPt_get h d) env φ
theorem exVal_pushEx (h : Heap) (d) (env) (φ : PtId → E) (ψ) :
    (h.pushEx d).exVal env φ ψ h.exs.length = d.den (Sym.eval env) (keyVal φ ψ) := exVal_of (pushEx_get h d) env φ ψ
end

theorem DictOk.pt {h : Heap} (hh : h.DictOk) {p : ℕ} {o : PtObj} (hp : h.pts[p]? = some o) : o.dict.NodupKeys :=
  hh.pts o (List.mem_of_getElem? hp)
theorem DictOk.ex {h : Heap} (hh : h.DictOk) {p : ℕ} {o : ExObj} (hp : h.exs[p]? = some o) : o.dict.NodupKeys :=
  hh.exs o (List.mem_of_getElem? hp)
theorem DictOk.pushPt {h : Heap} (hh : h.DictOk) {d} (hd : d.NodupKeys) : (h.pushPt d).DictOk := by
  refine ⟨?_, hh.exs⟩
  intro o ho
  rcases List.mem_append.1 ho with h' | h'
  · exact hh.pts o h'
  · simp at h'; subst h'; exact hd
theorem DictOk.pushEx {h : Heap} (hh : h.DictOk) {d} (hd : d.NodupKeys) : (h.pushEx d).DictOk := by
  refine ⟨hh.pts, ?_⟩
  intro o ho
  rcases List.mem_append.1 ho with h' | h'
  · exact hh.exs o h'
  · simp at h'; subst h'; exact hd

theorem IsPt.get {h : Heap} {p : ℕ} (hp : h.IsPt p) : ∃ o, h.pts[p]? = some o := ⟨_, List.getElem?_eq_getElem hp⟩
theorem IsEx.get {h : Heap} {p : ℕ} (hp : h.IsEx p) : ∃ o, h.exs[p]? = some o := ⟨_, List.getElem?_eq_getElem hp⟩
theorem isPt_of_get {h : Heap} {p : ℕ} {o : PtObj} (hp : h.pts[p]? = some o) : h.IsPt p := (List.getElem?_eq_some_iff.1 hp).1
theorem isEx_of_get {h : Heap} {p : ℕ} {o : ExObj} (hp : h.exs[p]? = some o) : h.IsEx p := (List.getElem?_eq_some_iff.1 hp).1

end Heap

theorem getPt_run {h : Heap} {p : ℕ} {o : PtObj} (hp : h.pts[p]? = some o) : getPt p h = .ok (o, h) := by simp [getPt, hp]
theorem getEx_run {h : Heap} {p : ℕ} {o : ExObj} (hp : h.exs[p]? = some o) : getEx p h = .ok (o, h) := by simp [getEx, hp]
theorem getFn_run {h : Heap} {p : ℕ} {o : FnObj} (hp : h.fns[p]? = some o) : getFn p h = .ok (o, h) := by simp [getFn, hp]
theorem newPt_run (h : Heap) (d) : newPt d h = .ok (h.pts.length, h.pushPt d) := rfl
theorem newEx_run (h : Heap) (d) : newEx d h = .ok (h.exs.length, h.pushEx d) := rfl

variable {C : CAS}

/-- closed form of each operation -/
theorem ptAdd_run {h : Heap} {p q : ℕ} {a b : PtObj} (hp : h.pts[p]? = some a) (hq : h.pts[q]? = some b) :
    ptAdd C p q h = .ok (h.pts.length,
      h.pushPt (Dict.prune (isZeroS C) (Dict.merge (plusS C) a.dict b.dict))) := by
  simp [ptAdd, M.bind_run, getPt_run hp, getPt_run hq, newPt_run]
theorem ptScale_run {h : Heap} {p : ℕ} {a : PtObj} (s) (hp : h.pts[p]? = some a) :
    ptScale C s p h = .ok (h.pts.length, h.pushPt (a.dict.mapVals fun v => timesS C v s)) := by
  simp [ptScale, M.bind_run, getPt_run hp, newPt_run]
theorem ptInner_run {h : Heap} {p q : ℕ} {a b : PtObj} (hp : h.pts[p]? = some a) (hq : h.pts[q]? = some b) :
    ptInner C p q h = .ok (h.exs.length, h.pushEx (innerDict C a.dict b.dict)) := by
  simp [ptInner, M.bind_run, getPt_run hp, getPt_run hq, newEx_run]
theorem exAdd_run {h : Heap} {p q : ℕ} {a b : ExObj} (hp : h.exs[p]? = some a) (hq : h.exs[q]? = some b) :
    exAdd C p q h = .ok (h.exs.length, h.pushEx (Dict.merge (plusS C) a.dict b.dict)) := by
  simp [exAdd, M.bind_run, getEx_run hp, getEx_run hq, newEx_run]
theorem exAddNum_run {h : Heap} {p : ℕ} {a : ExObj} (c) (hp : h.exs[p]? = some a) :
    exAddNum C p c h = .ok (h.exs.length, h.pushEx (Dict.merge (plusS C) a.dict [(ExKey.one, Sym.num c)])) := by
  simp [exAddNum, M.bind_run, getEx_run hp, newEx_run]
theorem exScale_run {h : Heap} {p : ℕ} {a : ExObj} (s) (hp : h.exs[p]? = some a) :
    exScale C s p h = .ok (h.exs.length, h.pushEx (a.dict.mapVals fun v => timesS C v s)) := by
  simp [exScale, M.bind_run, getEx_run hp, newEx_run]

section law
variable (hC : C.Lawful)
include hC
theorem plusS_eval (env) (a b : Sym) : (plusS C a b).eval env = a.eval env + b.eval env := by
  simp [plusS, hC.simp_eval]
theorem timesS_eval (env) (a b : Sym) : (timesS C a b).eval env = a.eval env * b.eval env := by
  simp [timesS, hC.simp_eval]
theorem isZeroS_eval (env) (v : Sym) (h : isZeroS C v = true) : v.eval env = 0 := by
  have := hC.eqB_sound _ _ h env
  simpa using this
theorem isZeroS_one : isZeroS C (Sym.num 1) = false := by
  by_contra h
  have := isZeroS_eval hC (fun _ => 0) _ (by simpa using h)
  simp at this
end law

theorem innerDict_nodup (d1 d2 : Dict PtId Sym) : (innerDict C d1 d2).NodupKeys := by
  have := Dict.nodup_multiply (timesS C) (· + ·) d1 d2
  unfold Dict.NodupKeys at *
  have e : (innerDict C d1 d2).keys = ((Dict.multiply (timesS C) (· + ·) d1 d2).keys).map
      (fun k => ExKey.inner k.1 k.2) := by simp [innerDict, Dict.keys, Function.comp_def]
  rw [e]
  apply List.Nodup.map _ this
  rintro ⟨a, b⟩ ⟨c, d⟩ h
  simpa using h

theorem mem_innerDict {d1 d2 : Dict PtId Sym} {k : ExKey} (h : k ∈ (innerDict C d1 d2).keys) :
    ∃ p q, k = ExKey.inner p q ∧ p ∈ d1.keys ∧ q ∈ d2.keys := by
  have e : (innerDict C d1 d2).keys = ((Dict.multiply (timesS C) (· + ·) d1 d2).keys).map
      (fun k => ExKey.inner k.1 k.2) := by simp [innerDict, Dict.keys, Function.comp_def]
  rw [e, List.mem_map] at h
  obtain ⟨pq, hpq, rfl⟩ := h
  exact ⟨pq.1, pq.2, rfl, Dict.mem_keys_multiply _ _ hpq⟩

variable {E : Type} [NormedAddCommGroup E] [InnerProductSpace ℝ E]

omit [InnerProductSpace ℝ E] in
theorem den_map_keys {α β γ : Type} [InnerProductSpace ℝ E] (ev : β → ℝ) (f : α → γ) (φ : γ → E) (d : Dict α β) :
    Dict.den ev φ (d.map fun kv => (f kv.1, kv.2)) = Dict.den ev (fun k => φ (f k)) d := by
  simp [Dict.den, Function.comp_def]

theorem inner_den_left (ev : Sym → ℝ) (φ : PtId → E) (d : Dict PtId Sym) (y : E) :
    ⟪d.den ev φ, y⟫_ℝ = d.den ev (fun k => ⟪φ k, y⟫_ℝ) := by
  induction d with
  | nil => simp
  | cons kv d ih => rw [Dict.den_cons, Dict.den_cons, inner_add_left, ih, real_inner_smul_left, smul_eq_mul]

theorem inner_den_right (ev : Sym → ℝ) (φ : PtId → E) (d : Dict PtId Sym) (y : E) :
    ⟪y, d.den ev φ⟫_ℝ = d.den ev (fun k => ⟪y, φ k⟫_ℝ) := by
  induction d with
  | nil => simp
  | cons kv d ih => rw [Dict.den_cons, Dict.den_cons, inner_add_right, ih, real_inner_smul_right, smul_eq_mul]

theorem den_innerDict (hC : C.Lawful) (env) (φ : PtId → E) (ψ) (d1 d2 : Dict PtId Sym) :
    (innerDict C d1 d2).den (Sym.eval env) (keyVal φ ψ) =
      ⟪d1.den (Sym.eval env) φ, d2.den (Sym.eval env) φ⟫_ℝ := by
  rw [innerDict, den_map_keys (Sym.eval env) (fun k : PtId × PtId => ExKey.inner k.1 k.2)]
  have := Dict.den_multiply (Sym.eval env) (times := timesS C) (plus := (· + ·))
    (timesS_eval hC env) (fun a b => Sym.eval_add env a b) (fun p q => ⟪φ p, φ q⟫_ℝ) d1 d2
  simp only [keyVal]
  rw [this, inner_den_left]
  congr 1
  funext k
  rw [inner_den_right]

end Verif
