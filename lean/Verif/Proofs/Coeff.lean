import Verif.Proofs.Linearize
import Verif.Proofs.SymMats

/-!
# `sp_v_coeff_matrix`
-/

namespace Verif

variable {C : CAS}

/-- the table of monomials is consistent -/
structure VTab.Ok (tab : VTab) : Prop where
  nodup : tab.names.Nodup
  idx : tab.idx = tab.names.zipIdx

namespace VTab.Ok

theorem keys {tab : VTab} (o : tab.Ok) : Dict.keys tab.idx = tab.names := by
  rw [o.idx, Dict.keys, List.zipIdx_map_fst]

theorem len {tab : VTab} (o : tab.Ok) : tab.idx.length = tab.names.length := by rw [o.idx]; simp

theorem get {tab : VTab} (o : tab.Ok) {k : VName} {i : ℕ} : tab.idx.get? k = some i ↔ tab.names[i]? = some k := by
  have hn : Dict.NodupKeys tab.idx := by rw [Dict.NodupKeys, o.keys]; exact o.nodup
  constructor
  · intro h
    have := Dict.mem_of_get? h
    rw [o.idx] at this
    exact List.mem_zipIdx_iff_getElem?.1 this
  · intro h
    apply Dict.get?_of_mem hn
    rw [o.idx]
    exact List.mem_zipIdx_iff_getElem?.2 h

theorem has {tab : VTab} (o : tab.Ok) {k : VName} : tab.idx.has k = true ↔ k ∈ tab.names := by rw [Dict.has_iff, o.keys]

theorem addName {tab : VTab} (o : tab.Ok) (s : Name) : (tab.addName s).Ok ∧ tab.names <+: (tab.addName s).names ∧
    VName.str s ∈ (tab.addName s).names := by
  rw [VTab.addName]
  split
  · rename_i h
    exact ⟨o, List.prefix_rfl, o.has.1 h⟩
  · rename_i h
    have hk : VName.str s ∉ tab.names := fun hh => h (o.has.2 hh)
    refine ⟨⟨?_, ?_⟩, List.prefix_append _ _, by simp⟩
    · show (tab.names ++ [VName.str s]).Nodup
      rw [List.nodup_append]
      refine ⟨o.nodup, by simp, ?_⟩
      intro a ha b hb hab
      rw [List.mem_singleton] at hb
      subst hb; subst hab; exact hk ha
    · show Dict.set tab.idx (VName.str s) tab.idx.length = (tab.names ++ [VName.str s]).zipIdx
      rw [Dict.set_new _ (by rw [o.keys]; exact hk), o.len, List.zipIdx_append, o.idx]
      simp

end VTab.Ok

theorem VTab.addName_names (tab : VTab) (s : Name) : ∀ k ∈ (tab.addName s).names, k ∈ tab.names ∨ k = .str s := by
  intro k hk
  rw [VTab.addName] at hk
  split at hk
  · exact Or.inl hk
  · simpa using hk

theorem VTab.init_ok {params : List Name} (h : params.Nodup) : (VTab.init params).Ok := by
  have hn : (VName.one :: params.map VName.str).Nodup := by
    rw [List.nodup_cons]
    refine ⟨by simp, List.Nodup.map (fun a b hab => by injection hab) h⟩
  refine ⟨hn, ?_⟩
  have := Dict.update_new (α := VName) (β := ℕ) (VName.one :: params.map VName.str).zipIdx [] (by
    rw [Dict.keys, Dict.keys, List.map_nil, List.nil_append, List.zipIdx_map_fst]; exact hn)
  rw [List.nil_append] at this
  exact this

theorem addPrefixes_spec : ∀ (rest l : List Name) (tab : VTab), l ≠ [] → tab.Ok →
    (VTab.addPrefixes rest (joinU l) tab).1 = joinU (l ++ rest) ∧ (VTab.addPrefixes rest (joinU l) tab).2.Ok ∧
    tab.names <+: (VTab.addPrefixes rest (joinU l) tab).2.names ∧
    (rest ≠ [] → VName.str (joinU (l ++ rest)) ∈ (VTab.addPrefixes rest (joinU l) tab).2.names) := by
  intro rest
  induction rest with
  | nil => intro l tab hl o; simp [VTab.addPrefixes, o]
  | cons el rest ih =>
    intro l tab hl o
    rw [VTab.addPrefixes, ← joinU_concat hl]
    obtain ⟨o1, p1, m1⟩ := o.addName (joinU (l ++ [el]))
    obtain ⟨a, b, c, d⟩ := ih (l ++ [el]) _ (by simp) o1
    have e : l ++ [el] ++ rest = l ++ el :: rest := by simp
    rw [e] at a d
    refine ⟨a, b, p1.trans c, fun _ => ?_⟩
    cases rest with
    | nil => exact c.subset m1
    | cons b' r' => exact d (by simp)

/-- row `i` of a coefficient matrix times a vector indexed by the table -/
noncomputable def Coeff.rowG (m : Coeff) (names : List VName) (g : VName → ℝ) (i : ℕ) : ℝ :=
  ∑ j ∈ Finset.range m.cols, (m.at_ i j : ℝ) * ((names[j]?).map g).getD 0

theorem rowVal_eq (m : Coeff) (names : List VName) (env : Name → ℝ) (i : ℕ) : m.rowVal names env i = m.rowG names (VName.val env) i := rfl

/-- row values do not change when the table grows -/
theorem rowVal_ext {m : Coeff} {ns ns' : List VName} (h : m.cols ≤ ns.length) (hp : ns <+: ns') (g : VName → ℝ) (i : ℕ) :
    m.rowG ns' g i = m.rowG ns g i := by
  unfold Coeff.rowG
  apply Finset.sum_congr rfl
  intro j hj
  have hj' : j < ns.length := lt_of_lt_of_le (Finset.mem_range.1 hj) h
  obtain ⟨t, rfl⟩ := hp
  rw [List.getElem?_append_left hj']

/-- a coefficient matrix fits the table -/
structure Fits (tab : VTab) (m : Coeff) : Prop where
  ok : tab.Ok
  cols : m.cols = tab.names.length
  zero : ∀ i j, m.cols ≤ j → m.at_ i j = 0

theorem varName_ne_one {t : PolyTerm} : varName t ≠ .one → monoNames t ≠ [] := by
  intro h hh
  apply h
  rw [varName, if_neg]
  rw [hh]; simp [sortNames]

theorem findIdx_spec {t : PolyTerm} {tab tab' : VTab} {m m' : Coeff} {i : ℕ} (f : Fits tab m) (hpl : ∀ n ∈ monoNames t, Plain n)
    (h : findIdx t tab m = .ok (i, tab', m')) :
    Fits tab' m' ∧ tab.names <+: tab'.names ∧ tab'.names[i]? = some (varName t) ∧ m'.at_ = m.at_ := by
  rw [findIdx] at h
  split at h
  · rename_i j hj
    injection h with h
    simp only [Prod.mk.injEq] at h
    obtain ⟨rfl, rfl, rfl⟩ := h
    exact ⟨f, List.prefix_rfl, f.ok.get.1 hj, rfl⟩
  · split at h
    · rename_i a b rest hs
      split at h
      · rename_i hpre
        split at h
        · rename_i j hj
          injection h with h
          simp only [Prod.mk.injEq] at h
          obtain ⟨rfl, rfl, rfl⟩ := h
          have := addPrefixes_spec (b :: rest) [a] tab (by simp) f.ok
          rw [joinU_singleton] at this
          obtain ⟨p1, p2, p3, p4⟩ := this
          refine ⟨⟨p2, ?_, ?_⟩, p3, p2.get.1 hj, rfl⟩
          · show m.cols + _ = _
            have := p3.length_le
            rw [p2.len, f.cols]; omega
          · intro x y hy
            apply f.zero
            have : m.cols ≤ (m.widen (VTab.addPrefixes (b :: rest) a tab).2.idx.length).cols := by simp [Coeff.widen]
            exact this.trans hy
        · simp at h
      · simp at h
    · simp at h

theorem any_underscore {t : PolyTerm} (h : ¬ (t.1.any fun p => decide ('_' ∈ p.1.toList)) = true) : ∀ n ∈ monoNames t, Plain n := by
  intro n hn
  rw [monoNames, List.mem_flatMap] at hn
  obtain ⟨p, hp, hn⟩ := hn
  rw [(List.mem_replicate.1 hn).2]
  intro hh
  exact h (List.any_eq_true.2 ⟨p, hp, by simpa using hh⟩)

theorem Except.bind_ok_iff {ε α β : Type} {x : Except ε α} {f : α → Except ε β} {b : β} :
    (x >>= f) = .ok b ↔ ∃ a, x = .ok a ∧ f a = .ok b := by
  cases x with
  | error e => simp [bind, Except.bind]
  | ok a => simp [bind, Except.bind]

theorem coeffTerm_spec {t : PolyTerm} {row : ℕ} {tab tab' : VTab} {m m' : Coeff} (f : Fits tab m)
    (h : coeffTerm row t tab m = .ok (tab', m')) :
    (∀ n ∈ monoNames t, Plain n) ∧ Fits tab' m' ∧ tab.names <+: tab'.names ∧
      ∃ j, tab'.names[j]? = some (varName t) ∧ m'.at_ = fun a b => if a = row ∧ b = j then t.2 else m.at_ a b := by
  rw [coeffTerm] at h
  split at h
  · simp at h
  · rename_i hpl
    have hpl := any_underscore hpl
    obtain ⟨⟨j, tab1, m1⟩, h1, h⟩ := Except.bind_ok_iff.1 h
    obtain ⟨m2, h2, h⟩ := Except.bind_ok_iff.1 h
    obtain ⟨f1, p1, g1, a1⟩ := findIdx_spec f hpl h1
    split at h
    · rename_i hcols
      injection h with h
      simp only [Prod.mk.injEq] at h
      obtain ⟨rfl, rfl⟩ := h
      rw [Coeff.put] at h2
      split at h2
      · rename_i hj
        injection h2 with h2
        subst h2
        simp only at hj hcols ⊢
        refine ⟨hpl, ⟨f1.ok, f1.cols, ?_⟩, p1, j, g1, by rw [a1]⟩
        intro x y hy
        simp only at hy ⊢
        rw [if_neg (by rintro ⟨-, rfl⟩; omega)]
        exact f1.zero x y hy
      · simp at h2
    · simp at h

theorem coeffTerm_ok {t : PolyTerm} {row : ℕ} {tab : VTab} {m : Coeff} {params : List Name} (f : Fits tab m)
    (hpre : (VName.one :: params.map VName.str) <+: tab.names) (hp : ∀ n ∈ params, Plain n) (ht : ∀ p ∈ t.1, p.1 ∈ params) :
    ∃ r, coeffTerm row t tab m = .ok r := by
  have hnu : ¬ (t.1.any fun p => decide ('_' ∈ p.1.toList)) = true := by
    rw [List.any_eq_true]
    rintro ⟨p, hp1, hp2⟩
    exact hp _ (ht p hp1) (by simpa using hp2)
  have hpl := any_underscore hnu
  have hmn : ∀ n ∈ monoNames t, n ∈ params := by
    intro n hn
    rw [monoNames, List.mem_flatMap] at hn
    obtain ⟨p, hp1, hn⟩ := hn
    rw [(List.mem_replicate.1 hn).2]; exact ht p hp1
  have hfi : ∃ r, findIdx t tab m = .ok r := by
    rw [findIdx]
    split
    · exact ⟨_, rfl⟩
    · rename_i hnone
      have hnot : varName t ∉ tab.names := by
        rw [Dict.get?_eq_none_iff, f.ok.keys] at hnone; exact hnone
      have hne : monoNames t ≠ [] := varName_ne_one fun hh => hnot (by rw [hh]; exact hpre.subset (by simp))
      have hsne : sortNames (monoNames t) ≠ [] := fun hh => hne (sortNames_eq_nil.1 hh)
      have hvn : varName t = .str (joinU (sortNames (monoNames t))) := by rw [varName, if_pos hsne]
      have hsp : splitU (joinU (sortNames (monoNames t))) = sortNames (monoNames t) :=
        splitU_join_plain hsne fun n hn => hpl n (mem_sortNames.1 hn)
      rw [hsp, sortNames_of_sorted (sortNames_pairwise _)]
      match hs : sortNames (monoNames t) with
      | [] => exact absurd hs hsne
      | [a] =>
        exfalso
        rw [hs, joinU_singleton] at hvn
        apply hnot
        rw [hvn]
        apply hpre.subset
        simp only [List.mem_cons, List.mem_map, VName.str.injEq, exists_eq_right]
        right
        exact hmn a (mem_sortNames.1 (by rw [hs]; simp))
      | a :: b :: rest =>
        simp only
        have := addPrefixes_spec (b :: rest) [a] tab (by simp) f.ok
        rw [joinU_singleton, List.singleton_append, ← hs, ← hvn] at this
        obtain ⟨p1, p2, p3, p4⟩ := this
        rw [if_pos (by rw [p1, hvn])]
        obtain ⟨j, hj⟩ := List.getElem?_of_mem (p4 (by simp))
        have hg := p2.get.2 hj
        rw [hg]
        exact ⟨_, rfl⟩
  obtain ⟨⟨j, tab1, m1⟩, h1⟩ := hfi
  obtain ⟨f1, p1, g1, a1⟩ := findIdx_spec f hpl h1
  rw [coeffTerm, if_neg hnu, h1]
  have hj : j < m1.cols := by rw [f1.cols]; exact (List.getElem?_eq_some_iff.1 g1).1
  refine ⟨(tab1, { m1 with at_ := fun a b => if a = row ∧ b = j then t.2 else m1.at_ a b }), ?_⟩
  simp only [bind, Except.bind, Coeff.put, if_pos hj]
  rw [if_pos (by rw [f1.ok.len, f1.cols])]

/-- overwriting a zero entry adds the term to the value of the row -/
theorem rowVal_put {m : Coeff} {names : List VName} {row j : ℕ} {c : ℚ} {k : VName} (hj : names[j]? = some k) (hc : m.cols = names.length)
    (hz : m.at_ row j = 0) (g : VName → ℝ) (i : ℕ) :
    (Coeff.mk m.cols fun a b => if a = row ∧ b = j then c else m.at_ a b).rowG names g i =
      m.rowG names g i + if i = row then (c : ℝ) * g k else 0 := by
  have hjl : j < m.cols := by rw [hc]; exact (List.getElem?_eq_some_iff.1 hj).1
  unfold Coeff.rowG
  simp only
  by_cases hi : i = row
  · subst hi
    rw [if_pos rfl]
    have h1 : ∀ f : ℕ → ℝ, ∑ x ∈ Finset.range m.cols, f x = f j + ∑ x ∈ (Finset.range m.cols).erase j, f x :=
      fun f => (Finset.add_sum_erase _ _ (Finset.mem_range.2 hjl)).symm
    rw [h1, h1 (fun x => (m.at_ i x : ℝ) * _), hz, hj]
    have : ∑ x ∈ (Finset.range m.cols).erase j, (((if i = i ∧ x = j then c else m.at_ i x : ℚ) : ℝ) * ((names[x]?).map g).getD 0) =
        ∑ x ∈ (Finset.range m.cols).erase j, ((m.at_ i x : ℝ) * ((names[x]?).map g).getD 0) := by
      apply Finset.sum_congr rfl
      intro x hx
      rw [if_neg (by rintro ⟨-, rfl⟩; simp at hx)]
    rw [this]
    simp; ring
  · rw [if_neg hi, add_zero]
    apply Finset.sum_congr rfl
    intro x _
    rw [if_neg (by rintro ⟨rfl, -⟩; exact hi rfl)]

theorem varName_val {t : PolyTerm} (hpl : ∀ n ∈ monoNames t, Plain n) (env : Name → ℝ) :
    (varName t).val env = ((monoNames t).map env).prod := by
  rw [varName]
  split
  · rename_i h
    rw [VName.val, longEnv_join env h, prod_sortNames]
    congr 1
    exact List.map_congr_left fun n hn => longEnv_plain (hpl n hn)
  · rename_i h
    push Not at h
    rw [sortNames_eq_nil] at h
    rw [h]; simp [VName.val]

theorem count_monoNames : ∀ {l : List (Name × ℕ)}, (l.map Prod.fst).Nodup → ∀ p ∈ l, (l.flatMap fun p => List.replicate p.2 p.1).count p.1 = p.2 := by
  intro l
  induction l with
  | nil => intro _ p hp; simp at hp
  | cons q l ih =>
    intro hn p hp
    rw [List.map_cons, List.nodup_cons] at hn
    rw [List.flatMap_cons, List.count_append, List.count_replicate]
    rcases List.mem_cons.1 hp with rfl | hp
    · have : (l.flatMap fun p => List.replicate p.2 p.1).count p.1 = 0 := by
        rw [List.count_eq_zero]
        intro hh
        obtain ⟨r, hr, hh⟩ := List.mem_flatMap.1 hh
        exact hn.1 (by rw [(List.mem_replicate.1 hh).2]; exact List.mem_map_of_mem (f := Prod.fst) hr)
      simp [this]
    · have : q.1 ≠ p.1 := fun hh => hn.1 (by rw [hh]; exact List.mem_map_of_mem (f := Prod.fst) hp)
      rw [ih hn.2 p hp, if_neg (by simpa using this)]; simp

/-- different monomials of a polynomial have different names -/
theorem varName_inj {gens : List Name} (hg : gens.Nodup) {t t' : PolyTerm} (h1 : t.1.map Prod.fst = gens) (h2 : t'.1.map Prod.fst = gens)
    (p1 : ∀ n ∈ monoNames t, Plain n) (p2 : ∀ n ∈ monoNames t', Plain n) (h : varName t = varName t') : t.1 = t'.1 := by
  have hs : sortNames (monoNames t) = sortNames (monoNames t') := by
    rw [varName, varName] at h
    split at h
    · rename_i ha
      split at h
      · rename_i hb
        injection h with h
        exact joinU_inj ha hb (fun n hn => p1 n (mem_sortNames.1 hn)) (fun n hn => p2 n (mem_sortNames.1 hn)) h
      · simp at h
    · rename_i ha
      split at h
      · simp at h
      · rename_i hb
        push Not at ha hb
        rw [ha, hb]
  have hperm : (monoNames t).Perm (monoNames t') := (sortNames_perm _).symm.trans (hs ▸ sortNames_perm _)
  have hl : t.1.length = t'.1.length := by
    have := congrArg List.length (h1.trans h2.symm); simpa using this
  apply List.ext_getElem hl
  intro i hi hi'
  have e1 : (t.1[i]).1 = (t'.1[i]).1 := by
    have hx : (t.1.map Prod.fst)[i]'(by simpa using hi) = (t'.1.map Prod.fst)[i]'(by simpa using hi') := by
      congr 1; rw [h1, h2]
    simpa using hx
  have c1 := count_monoNames (l := t.1) (by rw [h1]; exact hg) _ (List.getElem_mem hi)
  have c2 := count_monoNames (l := t'.1) (by rw [h2]; exact hg) _ (List.getElem_mem hi')
  have c3 := hperm.count_eq (t.1[i]).1
  rw [monoNames, monoNames, c1, e1, c2] at c3
  exact Prod.ext e1 c3

/-- invariant while the terms of entry `row` are processed: `done` are the processed terms -/
structure RowInv (row : ℕ) (done : List PolyTerm) (tab : VTab) (m : Coeff) : Prop where
  fits : Fits tab m
  val : ∀ g, m.rowG tab.names g row = (done.map fun t => (t.2 : ℝ) * g (varName t)).sum
  fresh : ∀ j k, tab.names[j]? = some k → (∀ t ∈ done, varName t ≠ k) → m.at_ row j = 0
  plain : ∀ t ∈ done, ∀ n ∈ monoNames t, Plain n
  below : ∀ i, row < i → ∀ j, m.at_ i j = 0

theorem rowVal_widen {m : Coeff} {n : ℕ} {names : List VName} (hz : ∀ i j, m.cols ≤ j → m.at_ i j = 0) (h : m.cols ≤ n) (g : VName → ℝ) (i : ℕ) :
    (Coeff.mk n m.at_).rowG names g i = m.rowG names g i := by
  unfold Coeff.rowG
  simp only
  symm
  apply Finset.sum_subset (Finset.range_mono h)
  intro j _ hj
  rw [hz i j (by simpa using hj)]; simp

theorem coeffTerms_spec {gens : List Name} (hg : gens.Nodup) {row : ℕ} : ∀ (ts done : List PolyTerm) {tab tab' : VTab} {m m' : Coeff},
    RowInv row done tab m → (∀ t ∈ done ++ ts, t.1.map Prod.fst = gens) → ((done ++ ts).map Prod.fst).Nodup →
    coeffTerms row ts tab m = .ok (tab', m') →
    RowInv row (done ++ ts) tab' m' ∧ tab.names <+: tab'.names ∧
      (∀ i, i ≠ row → ∀ g, m'.rowG tab'.names g i = m.rowG tab.names g i) := by
  intro ts
  induction ts with
  | nil =>
    intro done tab tab' m m' ri _ _ h
    rw [coeffTerms] at h
    injection h with h
    simp only [Prod.mk.injEq] at h
    obtain ⟨rfl, rfl⟩ := h
    rw [List.append_nil]
    exact ⟨ri, List.prefix_rfl, fun i _ env => rfl⟩
  | cons t ts ih =>
    intro done tab tab' m m' ri hgen hnd h
    rw [coeffTerms] at h
    obtain ⟨⟨tab1, m1⟩, h1, h⟩ := Except.bind_ok_iff.1 h
    obtain ⟨hpl, f1, p1, j, hj, ha⟩ := coeffTerm_spec ri.fits h1
    have hfr : ∀ u ∈ done, varName u ≠ varName t := by
      intro u hu hh
      have := varName_inj hg (hgen u (by simp [hu])) (hgen t (by simp)) (ri.plain u hu) hpl hh
      rw [List.map_append, List.nodup_append] at hnd
      exact hnd.2.2 u.1 (List.mem_map_of_mem hu) t.1 (by simp) this
    have hcl : m.cols ≤ m1.cols := by rw [ri.fits.cols, f1.cols]; exact p1.length_le
    have hz : m.at_ row j = 0 := by
      by_cases hjm : j < tab.names.length
      · have : tab.names[j]? = some (varName t) := by
          obtain ⟨x, hx⟩ := p1
          rw [← hx, List.getElem?_append_left hjm] at hj; exact hj
        exact ri.fresh j _ this hfr
      · exact ri.fits.zero row j (by rw [ri.fits.cols]; omega)
    have hrow : ∀ env i, m1.rowG tab1.names env i = m.rowG tab.names env i + if i = row then (t.2 : ℝ) * env (varName t) else 0 := by
      intro env i
      have e1 : m1 = Coeff.mk (Coeff.mk m1.cols m.at_).cols fun a b => if a = row ∧ b = j then t.2 else (Coeff.mk m1.cols m.at_).at_ a b := by
        cases m1; simp only at ha ⊢; rw [ha]
      rw [e1, rowVal_put (m := Coeff.mk m1.cols m.at_) hj (by simpa using f1.cols) hz, rowVal_widen ri.fits.zero hcl, rowVal_ext (by rw [ri.fits.cols]) p1]
    have ri1 : RowInv row (done ++ [t]) tab1 m1 := by
      refine ⟨f1, ?_, ?_, ?_, ?_⟩
      · intro env
        rw [hrow, if_pos rfl, ri.val env, List.map_append, List.sum_append, List.map_singleton, List.sum_singleton]
      · intro i k hk hd
        rw [ha]
        simp only
        have hij : i ≠ j := by
          rintro rfl
          rw [hk] at hj
          injection hj with hj
          exact hd t (by simp) hj.symm
        rw [if_neg (by rintro ⟨-, hh⟩; exact hij hh)]
        by_cases him : i < tab.names.length
        · apply ri.fresh i k
          · obtain ⟨x, hx⟩ := p1
            rw [← hx, List.getElem?_append_left him] at hk; exact hk
          · intro u hu; exact hd u (by simp [hu])
        · exact ri.fits.zero row i (by rw [ri.fits.cols]; omega)
      · intro u hu
        rcases List.mem_append.1 hu with hu | hu
        · exact ri.plain u hu
        · rw [List.mem_singleton] at hu; subst hu; exact hpl
      · intro i hi k
        rw [ha]; simp only
        rw [if_neg (by rintro ⟨rfl, -⟩; omega)]
        exact ri.below i hi k
    have e : done ++ [t] ++ ts = done ++ t :: ts := by simp
    obtain ⟨r1, r2, r3⟩ := ih (done ++ [t]) ri1 (by rw [e]; exact hgen) (by rw [e]; exact hnd) h
    rw [e] at r1
    refine ⟨r1, p1.trans r2, fun i hi env => ?_⟩
    rw [r3 i hi env, hrow, if_neg hi, add_zero]

theorem coeffTerms_ok {params : List Name} (hp : ∀ n ∈ params, Plain n) {row : ℕ} : ∀ (ts : List PolyTerm) {tab : VTab} {m : Coeff},
    Fits tab m → (VName.one :: params.map VName.str) <+: tab.names → (∀ t ∈ ts, ∀ p ∈ t.1, p.1 ∈ params) →
    ∃ r, coeffTerms row ts tab m = .ok r := by
  intro ts
  induction ts with
  | nil => intro tab m _ _ _; exact ⟨_, rfl⟩
  | cons t ts ih =>
    intro tab m f hpre ht
    obtain ⟨⟨tab1, m1⟩, h1⟩ := coeffTerm_ok (row := row) f hpre hp (ht t (by simp))
    obtain ⟨-, f1, p1, -⟩ := coeffTerm_spec f h1
    obtain ⟨r, hr⟩ := ih f1 (hpre.trans p1) fun u hu => ht u (by simp [hu])
    exact ⟨r, by rw [coeffTerms, h1]; exact hr⟩

variable (C) in
/-- the terms of an entry, with a value for every monomial -/
noncomputable def termSum (e : Sym) (g : VName → ℝ) : ℝ :=
  if isConst C e then ((C.simp e).toFloat : ℝ) * g .one else ((C.poly (C.simp e)).map fun t => (t.2 : ℝ) * g (varName t)).sum

variable (C) in
/-- what holds after the entries number `< row` have been processed -/
structure MatInv C (row : ℕ) (done : List Sym) (tab : VTab) (m : Coeff) : Prop where
  fits : Fits tab m
  val : ∀ (i : ℕ) (e : Sym), done[i]? = some e → ∀ g, m.rowG tab.names g i = termSum C e g
  plain : ∀ (i : ℕ) (e : Sym), done[i]? = some e → isConst C e = false → ∀ t ∈ C.poly (C.simp e), ∀ n ∈ monoNames t, Plain n
  below : ∀ i, row ≤ i → ∀ j, m.at_ i j = 0

theorem coeffEntry_spec (hC : C.Lawful) {row : ℕ} {e : Sym} {tab tab' : VTab} {m m' : Coeff} {done : List Sym} (hd : done.length = row)
    (hone : tab.names[0]? = some .one) (mi : MatInv C row done tab m) (h : coeffEntry C row e tab m = .ok (tab', m')) :
    MatInv C (row + 1) (done ++ [e]) tab' m' ∧ tab.names <+: tab'.names := by
  have hzero : ∀ g, m.rowG tab.names g row = 0 := by
    intro g
    unfold Coeff.rowG
    apply Finset.sum_eq_zero
    intro j _
    rw [mi.below row le_rfl j]; simp
  rw [coeffEntry] at h
  split at h
  · rename_i hc
    obtain ⟨m1, h1, h⟩ := Except.bind_ok_iff.1 h
    injection h with h
    simp only [Prod.mk.injEq] at h
    obtain ⟨rfl, rfl⟩ := h
    rw [Coeff.put] at h1
    split at h1
    · rename_i hj
      injection h1 with h1
      subst h1
      refine ⟨⟨⟨mi.fits.ok, mi.fits.cols, ?_⟩, ?_, ?_, ?_⟩, List.prefix_rfl⟩
      · intro x y hy
        simp only at hy ⊢
        rw [if_neg (by rintro ⟨-, rfl⟩; omega)]
        exact mi.fits.zero x y hy
      · intro i e' hi env
        rw [rowVal_put hone mi.fits.cols (mi.below row le_rfl 0)]
        by_cases hir : i = row
        · subst hir
          rw [if_pos rfl, hzero, zero_add]
          rw [List.getElem?_append_right (by omega), hd] at hi
          simp only [Nat.sub_self, List.getElem?_cons_zero, Option.some.injEq] at hi
          subst hi
          rw [termSum, if_pos hc]
        · rw [if_neg hir, add_zero]
          have hlt : i < done.length := by
            have := (List.getElem?_eq_some_iff.1 hi).1
            simp at this; omega
          rw [List.getElem?_append_left hlt] at hi
          exact mi.val i e' hi env
      · intro i e' hi hc'
        by_cases hir : i = row
        · subst hir
          rw [List.getElem?_append_right (by omega), hd] at hi
          simp only [Nat.sub_self, List.getElem?_cons_zero, Option.some.injEq] at hi
          subst hi
          rw [hc] at hc'
          cases hc'
        · have hlt : i < done.length := by
            have := (List.getElem?_eq_some_iff.1 hi).1
            simp at this; omega
          rw [List.getElem?_append_left hlt] at hi
          exact mi.plain i e' hi hc'
      · intro i hi j
        simp only
        rw [if_neg (by rintro ⟨rfl, -⟩; omega)]
        exact mi.below i (by omega) j
    · simp at h1
  · rename_i hc
    obtain ⟨gens, hg, hgen⟩ := hC.poly_gens (C.simp e)
    have ri : RowInv row [] tab m := ⟨mi.fits, fun env => by rw [hzero]; simp, fun j k _ _ => mi.below row le_rfl j, by simp,
      fun i hi => mi.below i (by omega)⟩
    obtain ⟨r1, r2, r3⟩ := coeffTerms_spec hg (C.poly (C.simp e)) [] ri (by simpa using hgen) (by simpa using hC.poly_nodup (C.simp e)) h
    refine ⟨⟨r1.fits, ?_, ?_, fun i hi => r1.below i (by omega)⟩, r2⟩
    · intro i e' hi env
      by_cases hir : i = row
      · subst hir
        rw [List.getElem?_append_right (by omega), hd] at hi
        simp only [Nat.sub_self, List.getElem?_cons_zero, Option.some.injEq] at hi
        subst hi
        rw [r1.val env, List.nil_append, termSum, if_neg hc]
      · have hlt : i < done.length := by
          have := (List.getElem?_eq_some_iff.1 hi).1
          simp at this; omega
        rw [List.getElem?_append_left hlt] at hi
        rw [r3 i hir env, mi.val i e' hi env]
    · intro i e' hi hc'
      by_cases hir : i = row
      · subst hir
        rw [List.getElem?_append_right (by omega), hd] at hi
        simp only [Nat.sub_self, List.getElem?_cons_zero, Option.some.injEq] at hi
        subst hi
        exact fun t ht => r1.plain t (by simpa using ht)
      · have hlt : i < done.length := by
          have := (List.getElem?_eq_some_iff.1 hi).1
          simp at this; omega
        rw [List.getElem?_append_left hlt] at hi
        exact mi.plain i e' hi hc'

theorem coeffEntries_spec (hC : C.Lawful) : ∀ (es done : List Sym) {row : ℕ} {tab tab' : VTab} {m m' : Coeff}, done.length = row →
    tab.names[0]? = some .one → MatInv C row done tab m → coeffEntries C es row tab m = .ok (tab', m') →
    MatInv C (row + es.length) (done ++ es) tab' m' ∧ tab.names <+: tab'.names := by
  intro es
  induction es with
  | nil =>
    intro done row tab tab' m m' _ _ mi h
    rw [coeffEntries] at h
    injection h with h
    simp only [Prod.mk.injEq] at h
    obtain ⟨rfl, rfl⟩ := h
    simpa using mi
  | cons e es ih =>
    intro done row tab tab' m m' hd hone mi h
    rw [coeffEntries] at h
    obtain ⟨⟨tab1, m1⟩, h1, h⟩ := Except.bind_ok_iff.1 h
    obtain ⟨mi1, p1⟩ := coeffEntry_spec hC hd hone mi h1
    have hone1 : tab1.names[0]? = some .one := by
      obtain ⟨x, hx⟩ := p1
      rw [← hx, List.getElem?_append_left (List.getElem?_eq_some_iff.1 hone).1]; exact hone
    obtain ⟨a, b⟩ := ih (done ++ [e]) (by simp [hd]) hone1 mi1 h
    refine ⟨?_, p1.trans b⟩
    have e1 : row + 1 + es.length = row + (e :: es).length := by simp; omega
    have e2 : done ++ [e] ++ es = done ++ e :: es := by simp
    rw [e1, e2] at a
    exact a

/-- the symbols of the matrix entries are parameters -/
theorem coeffEntries_ok (hC : C.Lawful) {params : List Name} (hp : ∀ n ∈ params, Plain n) : ∀ (es done : List Sym) {row : ℕ} {tab : VTab} {m : Coeff},
    done.length = row → (VName.one :: params.map VName.str) <+: tab.names → MatInv C row done tab m →
    (∀ e ∈ es, ∀ n ∈ e.vars, n ∈ params) → ∃ r, coeffEntries C es row tab m = .ok r := by
  intro es
  induction es with
  | nil => intro done row tab m _ _ _ _; exact ⟨_, rfl⟩
  | cons e es ih =>
    intro done row tab m hd hpre mi hv
    have hone : tab.names[0]? = some .one := by
      obtain ⟨x, hx⟩ := hpre
      rw [← hx]; rfl
    have h1 : ∃ r, coeffEntry C row e tab m = .ok r := by
      rw [coeffEntry]
      split
      · have : (0 : ℕ) < m.cols := by rw [mi.fits.cols]; exact (List.getElem?_eq_some_iff.1 hone).1
        simp [Coeff.put, this, bind, Except.bind]
      · refine coeffTerms_ok hp _ mi.fits hpre ?_
        intro t ht p hpt
        exact hv e (by simp) _ (hC.simp_vars _ _ (hC.poly_vars _ t ht p hpt))
    obtain ⟨⟨tab1, m1⟩, h1⟩ := h1
    obtain ⟨mi1, p1⟩ := coeffEntry_spec hC hd hone mi h1
    obtain ⟨r, hr⟩ := ih (done ++ [e]) (by simp [hd]) (hpre.trans p1) mi1 fun e' he' => hv e' (by simp [he'])
    exact ⟨r, by rw [coeffEntries, h1]; exact hr⟩

theorem matInv_zero {tab : VTab} (o : tab.Ok) : MatInv C 0 [] tab ⟨tab.names.length, fun _ _ => 0⟩ :=
  ⟨⟨o, rfl, fun _ _ _ => rfl⟩, by simp, by simp, fun _ _ _ => rfl⟩

theorem termSum_val (hC : C.Lawful) {e : Sym} (hp : isConst C e = false → ∀ t ∈ C.poly (C.simp e), ∀ n ∈ monoNames t, Plain n) (env : Name → ℝ) :
    termSum C e (VName.val env) = e.eval env := by
  rw [termSum]
  split
  · rename_i hc
    rw [isConst_eval hC hc]; simp [VName.val]
  · rename_i hc
    rw [← hC.simp_eval env e, ← hC.poly_eval env (C.simp e)]
    congr 1
    refine List.map_congr_left fun t ht => ?_
    rw [varName_val (hp (by simpa using hc) t ht), prod_monoNames]

variable (C) in
/-- the coefficient matrix `m` represents the list of entries -/
structure Represents (m : Coeff) (names : List VName) (es : List Sym) : Prop where
  cols : m.cols ≤ names.length
  val : ∀ (i : ℕ) (e : Sym), es[i]? = some e → ∀ g, m.rowG names g i = termSum C e g
  plain : ∀ (i : ℕ) (e : Sym), es[i]? = some e → isConst C e = false → ∀ t ∈ C.poly (C.simp e), ∀ n ∈ monoNames t, Plain n

theorem Represents.ext {m : Coeff} {ns ns' : List VName} {es : List Sym} (r : Represents C m ns es) (h : ns <+: ns') : Represents C m ns' es :=
  ⟨r.cols.trans h.length_le, fun i e hi env => by rw [rowVal_ext r.cols h, r.val i e hi env], r.plain⟩

theorem Represents.eval (hC : C.Lawful) {m : Coeff} {ns : List VName} {es : List Sym} (r : Represents C m ns es) {i : ℕ} {e : Sym} (h : es[i]? = some e)
    (env : Name → ℝ) : m.rowVal ns env i = e.eval env := by
  rw [rowVal_eq, r.val i e h, termSum_val hC (r.plain i e h)]

theorem coeffMatrix_spec (hC : C.Lawful) {es : List Sym} {tab tab' : VTab} {m : Coeff} (o : tab.Ok) (hone : tab.names[0]? = some .one)
    (h : coeffMatrix C es tab = .ok (tab', m)) : tab'.Ok ∧ tab.names <+: tab'.names ∧ Represents C m tab'.names es := by
  obtain ⟨a, b⟩ := coeffEntries_spec hC es [] rfl hone (matInv_zero o) h
  exact ⟨a.fits.ok, b, ⟨a.fits.cols.le, fun i e hi env => a.val i e (by simpa using hi) env, fun i e hi => a.plain i e (by simpa using hi)⟩⟩

theorem coeffMatrix_ok (hC : C.Lawful) {params : List Name} (hp : ∀ n ∈ params, Plain n) {es : List Sym} {tab : VTab} (o : tab.Ok)
    (hpre : (VName.one :: params.map VName.str) <+: tab.names) (hv : ∀ e ∈ es, ∀ n ∈ e.vars, n ∈ params) :
    ∃ r, coeffMatrix C es tab = .ok r := coeffEntries_ok hC hp es [] rfl hpre (matInv_zero o) hv

theorem one_of_prefix {tab : VTab} {params : List Name} (hpre : (VName.one :: params.map VName.str) <+: tab.names) :
    tab.names[0]? = some .one := by
  obtain ⟨x, hx⟩ := hpre
  rw [← hx]; rfl

theorem coeffLoop_spec (hC : C.Lawful) {params : List Name} {dimG dimF : ℕ} : ∀ (ms : List FG) {tab tab' : VTab} {cs : List (Coeff × Coeff)}, tab.Ok →
    (VName.one :: params.map VName.str) <+: tab.names → coeffLoop C dimG dimF ms tab = .ok (tab', cs) →
    tab'.Ok ∧ tab.names <+: tab'.names ∧
      List.Forall₂ (fun (m : FG) (c : Coeff × Coeff) => Represents C c.1 tab'.names (m.flatF dimF) ∧ Represents C c.2 tab'.names (m.flatG dimG)) ms cs := by
  intro ms
  induction ms with
  | nil =>
    intro tab tab' cs o _ h
    rw [coeffLoop] at h
    injection h with h
    simp only [Prod.mk.injEq] at h
    obtain ⟨rfl, rfl⟩ := h
    exact ⟨o, List.prefix_rfl, .nil⟩
  | cons m ms ih =>
    intro tab tab' cs o hpre h
    rw [coeffLoop] at h
    obtain ⟨⟨tab1, f⟩, h1, h⟩ := Except.bind_ok_iff.1 h
    obtain ⟨⟨tab2, g⟩, h2, h⟩ := Except.bind_ok_iff.1 h
    obtain ⟨⟨tab3, rs⟩, h3, h⟩ := Except.bind_ok_iff.1 h
    injection h with h
    simp only [Prod.mk.injEq] at h
    obtain ⟨rfl, rfl⟩ := h
    obtain ⟨o1, p1, r1⟩ := coeffMatrix_spec hC o (one_of_prefix hpre) h1
    obtain ⟨o2, p2, r2⟩ := coeffMatrix_spec hC o1 (one_of_prefix (hpre.trans p1)) h2
    obtain ⟨o3, p3, r3⟩ := ih o2 ((hpre.trans p1).trans p2) h3
    exact ⟨o3, (p1.trans p2).trans p3, .cons ⟨r1.ext (p2.trans p3), r2.ext p3⟩ r3⟩

theorem coeffLoop_ok (hC : C.Lawful) {params : List Name} (hp : ∀ n ∈ params, Plain n) {dimG dimF : ℕ} : ∀ (ms : List FG) {tab : VTab}, tab.Ok →
    (VName.one :: params.map VName.str) <+: tab.names → (∀ m ∈ ms, ∀ n, m.Occurs n → n ∈ params) →
    ∃ r, coeffLoop C dimG dimF ms tab = .ok r := by
  intro ms
  induction ms with
  | nil => intro tab _ _ _; exact ⟨_, rfl⟩
  | cons m ms ih =>
    intro tab o hpre hv
    obtain ⟨⟨tab1, f⟩, h1⟩ := coeffMatrix_ok (es := m.flatF dimF) hC hp o hpre (by
      intro e he n hn
      obtain ⟨i, -, rfl⟩ := List.mem_map.1 he
      exact hv m (by simp) n (Or.inl ⟨i, hn⟩))
    obtain ⟨o1, p1, r1⟩ := coeffMatrix_spec hC o (one_of_prefix hpre) h1
    obtain ⟨⟨tab2, g⟩, h2⟩ := coeffMatrix_ok (es := m.flatG dimG) hC hp o1 (hpre.trans p1) (by
      intro e he n hn
      obtain ⟨i, -, rfl⟩ := List.mem_map.1 he
      exact hv m (by simp) n (Or.inr ⟨_, _, hn⟩))
    obtain ⟨o2, p2, r2⟩ := coeffMatrix_spec hC o1 (one_of_prefix (hpre.trans p1)) h2
    obtain ⟨⟨tab3, rs⟩, h3⟩ := ih o2 ((hpre.trans p1).trans p2) fun m' hm' => hv m' (by simp [hm'])
    refine ⟨(tab3, (f, g) :: rs), ?_⟩
    rw [coeffLoop, h1]
    simp only [bind, Except.bind]
    rw [h2]
    simp only
    rw [h3]

end Verif
