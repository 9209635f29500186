import Verif.Infer.Intensity
import Verif.Infer.ParamsProps

/-!
# C74: fluxes, luminosities and energies reported with a fit
-/

namespace Elisa.Infer

open Elisa

/-! ## the representative of each model -/

/-- the groups are the datasets, sorted by model -/
structure GroupsOf (ds : List (String × Nat)) (g : List (Nat × List String)) : Prop where
  perm : (g.flatMap fun x => x.2.map fun n => (n, x.1)).Perm ds
  ne : ∀ x ∈ g, x.2 ≠ []
  nodup : (g.map (·.1)).Nodup

theorem addToGroup_keys (g : List (Nat × List String)) (d : String × Nat) :
    (addToGroup g d).map (·.1) = if d.2 ∈ g.map (·.1) then g.map (·.1) else g.map (·.1) ++ [d.2] := by
  induction g with
  | nil => simp [addToGroup]
  | cons x g ih =>
    obtain ⟨m, v⟩ := x
    unfold addToGroup
    by_cases h : m = d.2
    · simp [h]
    · rw [if_neg h, List.map_cons, ih]
      have h' : ¬ d.2 = m := fun e => h e.symm
      by_cases h2 : d.2 ∈ g.map (·.1)
      · rw [if_pos h2, if_pos (by simpa using Or.inr (by simpa using h2))]; rfl
      · rw [if_neg h2, if_neg (by simpa [h'] using h2)]; rfl

theorem addToGroup_ne (g : List (Nat × List String)) (d : String × Nat) (h : ∀ x ∈ g, x.2 ≠ []) :
    ∀ x ∈ addToGroup g d, x.2 ≠ [] := by
  induction g with
  | nil => simp [addToGroup]
  | cons x g ih =>
    obtain ⟨m, v⟩ := x
    unfold addToGroup
    have h1 := h (m, v) (by simp)
    have h2 := ih fun y hy => h y (by simp [hy])
    split_ifs
    · intro y hy
      rcases List.mem_cons.1 hy with rfl | hy
      · simp
      · exact h y (by simp [hy])
    · intro y hy
      rcases List.mem_cons.1 hy with rfl | hy
      · exact h1
      · exact h2 y hy

theorem addToGroup_perm (g : List (Nat × List String)) (d : String × Nat) :
    ((addToGroup g d).flatMap fun x => x.2.map fun n => (n, x.1)).Perm
      ((g.flatMap fun x => x.2.map fun n => (n, x.1)) ++ [d]) := by
  induction g with
  | nil => simp [addToGroup]
  | cons x g ih =>
    obtain ⟨m, v⟩ := x
    unfold addToGroup
    split_ifs with h
    · subst h
      simp only [List.flatMap_cons, List.map_append, List.map_cons, List.map_nil, List.append_assoc]
      exact List.Perm.append_left _ List.perm_append_comm
    · simp only [List.flatMap_cons, List.append_assoc]
      exact List.Perm.append_left _ ih

theorem modelGroups_spec (ds : List (String × Nat)) : GroupsOf ds (modelGroups ds) := by
  induction ds using List.reverseRecOn with
  | nil => exact ⟨by simp [modelGroups], by simp [modelGroups], by simp [modelGroups]⟩
  | append_singleton ds d ih =>
    have e : modelGroups (ds ++ [d]) = addToGroup (modelGroups ds) d := by simp [modelGroups]
    rw [e]
    refine ⟨(addToGroup_perm _ _).trans (List.Perm.append_right _ ih.perm), addToGroup_ne _ _ ih.ne, ?_⟩
    rw [addToGroup_keys]
    split_ifs with h
    · exact ih.nodup
    · rw [List.nodup_append]
      refine ⟨ih.nodup, by simp, ?_⟩
      intro a ha b hb
      have : b = d.2 := by simpa using hb
      subst this
      rintro rfl
      exact h ha

theorem modelMapping_keys (ds : List (String × Nat)) :
    ((modelMapping ds).map (·.1)).Perm (ds.map (·.1)) := by
  have h := (modelGroups_spec ds).perm.map (·.1)
  refine List.Perm.trans (List.Perm.of_eq ?_) h
  unfold modelMapping
  simp only [List.map_flatMap, List.map_map]
  rfl

/-- a dataset and the one standing for it are fitted with the same model, and one dataset stands for each model -/
theorem modelMapping_rep (ds : List (String × Nat)) (k v : String) (h : (k, v) ∈ modelMapping ds) :
    ∃ m, (k, m) ∈ ds ∧ (v, m) ∈ ds ∧ (v, v) ∈ modelMapping ds := by
  have hg := modelGroups_spec ds
  unfold modelMapping at h ⊢
  obtain ⟨g, hgm, hk⟩ := List.mem_flatMap.1 h
  obtain ⟨n, hn, e⟩ := List.mem_map.1 hk
  simp only [Prod.mk.injEq] at e
  obtain ⟨rfl, rfl⟩ := e
  have hne := hg.ne g hgm
  obtain ⟨w, t, ht⟩ := List.exists_cons_of_ne_nil hne
  have hin : ∀ x ∈ g.2, (x, g.1) ∈ ds := by
    intro x hx
    apply hg.perm.mem_iff.1
    exact List.mem_flatMap.2 ⟨g, hgm, List.mem_map.2 ⟨x, hx, rfl⟩⟩
  have hv : g.2.headD "" = w := by rw [ht]; rfl
  rw [hv]
  refine ⟨g.1, hin n hn, hin w (by rw [ht]; simp), List.mem_flatMap.2 ⟨g, hgm, List.mem_map.2 ⟨w, by rw [ht]; simp, ?_⟩⟩⟩
  rw [hv]

/-! ## dictionaries -/

theorem lookup_map_value {V W : Type} (g : V → W) (l : List (String × V)) (k : String) :
    (l.map fun x => (x.1, g x.2)).lookup k = (l.lookup k).map g := by
  induction l with
  | nil => rfl
  | cons x l ih =>
    obtain ⟨a, b⟩ := x
    simp only [List.map_cons, List.lookup_cons]
    cases k == a
    · exact ih
    · rfl

theorem dictSet_lookup {V : Type} (d : List (String × V)) (k : String) (v : V) (k' : String) :
    (dictSet d k v).lookup k' = if k' = k then some v else d.lookup k' := by
  unfold dictSet
  split_ifs with h1 h2 h2
  · subst h2
    induction d with
    | nil => simp at h1
    | cons x d ih =>
      obtain ⟨x, y⟩ := x
      simp only [List.map_cons]
      by_cases hx : x = k'
      · simp [hx]
      · rw [if_neg hx]
        have hx' : (k' == x) = false := by simpa using fun e => hx e.symm
        rw [List.lookup_cons, hx']
        apply ih
        simp only [List.map_cons, List.mem_cons] at h1
        rcases h1 with h1 | h1
        · exact absurd h1.symm hx
        · exact h1
  · clear h1
    induction d with
    | nil => rfl
    | cons x d ih =>
      obtain ⟨x, y⟩ := x
      simp only [List.map_cons]
      by_cases hx : x = k
      · rw [if_pos hx, List.lookup_cons, List.lookup_cons]
        have e1 : (k' == k) = false := by simpa using h2
        have e2 : (k' == x) = false := by simpa [hx] using h2
        rw [e1, e2]
        exact ih
      · rw [if_neg hx, List.lookup_cons, List.lookup_cons]
        cases k' == x
        · exact ih
        · rfl
  · subst h2
    rw [List.lookup_append]
    have : d.lookup k' = none := by
      rw [List.lookup_eq_none_iff]
      intro p hp
      simp only [bne_iff_ne, ne_eq, beq_eq_false_iff_ne]
      rintro rfl
      exact h1 (List.mem_map.2 ⟨p, hp, rfl⟩)
    rw [this]; simp
  · rw [List.lookup_append]
    have : ([(k, v)] : List (String × V)).lookup k' = none := by
      have e1 : (k' == k) = false := by simpa using h2
      simp [List.lookup_cons, e1]
    rw [this]; simp

theorem dictOf_get {V : Type} (pairs : List (String × V)) (k : String) (v : V) (hk : k ∈ pairs.map (·.1))
    (hv : ∀ p ∈ pairs, p.1 = k → p.2 = v) : (dictOf pairs).lookup k = some v := by
  induction pairs using List.reverseRecOn with
  | nil => simp at hk
  | append_singleton ps x ih =>
    rw [dictOf_snoc, dictSet_lookup]
    split_ifs with h
    · rw [hv x (by simp) h.symm]
    · apply ih
      · simp only [List.map_append, List.mem_append, List.map_cons, List.map_nil, List.mem_singleton] at hk
        rcases hk with hk | hk
        · exact hk
        · exact absurd hk h
      · intro p hp; exact hv p (by simp [hp])

theorem dictGet_fn {V W : Type} (pairs : List (String × V)) (g : V → W) (k : String) (v : V)
    (hk : k ∈ pairs.map (·.1)) (hv : ∀ p ∈ pairs, p.1 = k → p.2 = v) :
    dictGet ((dictOf pairs).map fun x => (x.1, g x.2)) k = .ok (g v) := by
  unfold dictGet
  rw [lookup_map_value, dictOf_get pairs k v hk hv]
  rfl

theorem mapM_map {A B : Type} (f : A → Except PyErr B) (g : A → B) (xs : List A) (h : ∀ a ∈ xs, f a = .ok (g a)) :
    xs.mapM f = .ok (xs.map g) := by
  induction xs with
  | nil => rfl
  | cons a xs ih =>
    rw [List.mapM_cons, h a (by simp), ih fun b hb => h b (by simp [hb])]
    rfl

/-! ## what is reported -/

variable {P : Type}

/-- What should be reported for the flux `f`: best value, standard error and interval of that very flux, in the requested
unit, and the errors as distances of the ends from the best value; all for the parameters the user asked for. -/
structure Reported (E : IntensityEngine P) (method : CiMethod) (f : P → ℝ) (r : Intensity) : Prop where
  mle : r.mle = E.factor * f (E.over E.mle)
  se : r.se = E.factor * E.se f
  lower : r.interval.1 = E.factor * (E.interval method f).1
  upper : r.interval.2 = E.factor * (E.interval method f).2
  errors : r.errors = (r.interval.1 - r.mle, r.interval.2 - r.mle)

theorem report_spec (E : IntensityEngine P) (method : CiMethod) (f : P → ℝ) :
    Reported E method f (E.report (f (E.over E.mle)) (E.se f) (E.interval method f)) := by
  refine ⟨?_, ?_, ?_, ?_, ?_⟩ <;> simp only [IntensityEngine.report]
  · ring
  · ring
  · ring
  · ring
  · rw [sub_mul, sub_mul]

/-- **C74** (datasets).  Whatever datasets share a model, the result has exactly one entry per dataset, and the entry of
each dataset is the flux of its own model: value, error, interval and errors. -/
theorem C74_datasets (E : IntensityEngine P) (method : CiMethod) (ds : List (String × Nat))
    (hn : (ds.map (·.1)).Nodup) (model : Nat → P → ℝ) (flux : String → P → ℝ) (hf : ∀ d ∈ ds, flux d.1 = model d.2) :
    ∃ r, intensity E method ds flux = .ok r ∧ (r.map (·.1)).Perm (ds.map (·.1)) ∧
      ∀ d ∈ ds, ∃ x, (d.1, x) ∈ r ∧ Reported E method (model d.2) x := by
  have huniq : ∀ {k m m'}, (k, m) ∈ ds → (k, m') ∈ ds → m = m' := by
    intro k m m' h h'
    exact congrArg Prod.snd (List.inj_on_of_nodup_map hn h h' rfl)
  have hstep : ∀ kv ∈ modelMapping ds,
      E.entry ((dictOf ((modelMapping ds).map fun kv => (kv.2, flux kv.2))).map fun kf => (kf.1, E.interval method kf.2))
        ((dictOf ((modelMapping ds).map fun kv => (kv.2, flux kv.2))).map fun kf => (kf.1, E.se kf.2)) kv.2 kv.1
        (flux kv.1 (E.over E.mle)) =
      .ok (kv.1, E.report (flux kv.1 (E.over E.mle)) (E.se (flux kv.1)) (E.interval method (flux kv.1))) := by
    intro kv hkv
    obtain ⟨m, h1, h2, h3⟩ := modelMapping_rep ds kv.1 kv.2 hkv
    have e : flux kv.2 = flux kv.1 := (hf _ h2).trans (hf _ h1).symm
    have hk : kv.2 ∈ ((modelMapping ds).map fun kv => (kv.2, flux kv.2)).map (·.1) := by
      simp only [List.map_map, List.mem_map]
      exact ⟨kv, hkv, rfl⟩
    have hv : ∀ p ∈ ((modelMapping ds).map fun kv => (kv.2, flux kv.2)), p.1 = kv.2 → p.2 = flux kv.2 := by
      intro p hp hpk
      obtain ⟨q, _, rfl⟩ := List.mem_map.1 hp
      exact congrArg flux hpk
    rw [IntensityEngine.entry, dictGet_fn _ _ _ _ hk hv, dictGet_fn _ _ _ _ hk hv, e]
    rfl
  refine ⟨_, mapM_map _ _ _ hstep, ?_, ?_⟩
  · rw [List.map_map]
    exact modelMapping_keys ds
  · intro d hd
    have hm : d.1 ∈ (modelMapping ds).map (·.1) :=
      (modelMapping_keys ds).mem_iff.2 (List.mem_map.2 ⟨d, hd, rfl⟩)
    obtain ⟨kv, hkv, hk⟩ := List.mem_map.1 hm
    have e := hf d hd
    refine ⟨_, List.mem_map.2 ⟨kv, hkv, by rw [hk]⟩, ?_⟩
    rw [← e]
    exact report_spec E method _

example : modelMapping [("a", 0), ("b", 1), ("c", 0)] = [("a", "a"), ("c", "a"), ("b", "b")] := by decide

/-- joining with an underscore is unambiguous when the second part has none -/
theorem compKey_inj {d d' c c' : String} (h : compKey d c = compKey d' c') (hc : '_' ∉ c.toList) (hc' : '_' ∉ c'.toList) :
    d = d' ∧ c = c' := by
  have hl : d.toList ++ '_' :: c.toList = d'.toList ++ '_' :: c'.toList := by
    have := congrArg String.toList h
    simpa [compKey] using this
  have key : ∀ (a b a' b' : List Char), '_' ∉ b → '_' ∉ b' → a ++ '_' :: b = a' ++ '_' :: b' → a = a' ∧ b = b' := by
    intro a
    induction a with
    | nil =>
      intro b a' b' hb hb' h
      cases a' with
      | nil => simpa using h
      | cons x a' =>
        simp only [List.nil_append, List.cons_append, List.cons.injEq] at h
        exact absurd (h.2 ▸ (by simp)) hb
    | cons x a ih =>
      intro b a' b' hb hb' h
      cases a' with
      | nil =>
        simp only [List.nil_append, List.cons_append, List.cons.injEq] at h
        exact absurd (h.2 ▸ (by simp)) hb'
      | cons y a' =>
        simp only [List.cons_append, List.cons.injEq] at h
        obtain ⟨h1, h2⟩ := ih _ _ _ hb hb' h.2
        exact ⟨by rw [h.1, h1], h2⟩
  obtain ⟨h1, h2⟩ := key _ _ _ _ hc hc' hl
  exact ⟨String.toList_inj.1 h1, String.toList_inj.1 h2⟩

/-- **C74** (components, partial).  When no component name contains an underscore, every component of every dataset is
reported with its own value, error and interval. -/
theorem C74_components_partial (E : IntensityEngine P) (method : CiMethod) (ds : List (String × Nat))
    (hn : (ds.map (·.1)).Nodup) (mcomps : Nat → List String) (mflux : Nat → String → P → ℝ)
    (comps : String → List String) (flux : String → String → P → ℝ)
    (hc : ∀ d ∈ ds, comps d.1 = mcomps d.2) (hf : ∀ d ∈ ds, ∀ c, flux d.1 c = mflux d.2 c)
    (hu : ∀ d ∈ ds, ∀ c ∈ mcomps d.2, '_' ∉ c.toList) :
    ∃ r, intensityComps E method ds comps flux = .ok r ∧ (r.map (·.1)).Perm (ds.map (·.1)) ∧
      ∀ d ∈ ds, ∃ x, (d.1, x) ∈ r ∧ x.map (·.1) = mcomps d.2 ∧
        ∀ c ∈ mcomps d.2, ∃ y, (c, y) ∈ x ∧ Reported E method (mflux d.2 c) y := by
  have hstep : ∀ kv ∈ modelMapping ds, (do
      let cs ← (comps kv.2).mapM fun c =>
        E.entry ((dictOf ((modelMapping ds).flatMap fun kv => (comps kv.2).map fun c =>
            (compKey kv.2 c, flux kv.2 c))).map fun kf => (kf.1, E.interval method kf.2))
          ((dictOf ((modelMapping ds).flatMap fun kv => (comps kv.2).map fun c =>
            (compKey kv.2 c, flux kv.2 c))).map fun kf => (kf.1, E.se kf.2)) (compKey kv.2 c) c
          (flux kv.1 c (E.over E.mle))
      return (kv.1, cs)) =
      (.ok (kv.1, (comps kv.1).map fun c =>
        (c, E.report (flux kv.1 c (E.over E.mle)) (E.se (flux kv.1 c)) (E.interval method (flux kv.1 c)))) :
        Except PyErr (String × List (String × Intensity))) := by
    intro kv hkv
    obtain ⟨m, h1, h2, h3⟩ := modelMapping_rep ds kv.1 kv.2 hkv
    have ec : comps kv.2 = comps kv.1 := (hc _ h2).trans (hc _ h1).symm
    have ef : ∀ c, flux kv.2 c = flux kv.1 c := fun c => (hf _ h2 c).trans (hf _ h1 c).symm
    have hin : ∀ c ∈ comps kv.2,
        E.entry ((dictOf ((modelMapping ds).flatMap fun kv => (comps kv.2).map fun c =>
            (compKey kv.2 c, flux kv.2 c))).map fun kf => (kf.1, E.interval method kf.2))
          ((dictOf ((modelMapping ds).flatMap fun kv => (comps kv.2).map fun c =>
            (compKey kv.2 c, flux kv.2 c))).map fun kf => (kf.1, E.se kf.2)) (compKey kv.2 c) c
          (flux kv.1 c (E.over E.mle)) =
        .ok (c, E.report (flux kv.1 c (E.over E.mle)) (E.se (flux kv.1 c)) (E.interval method (flux kv.1 c))) := by
      intro c hcm
      have hk : compKey kv.2 c ∈ ((modelMapping ds).flatMap fun kv => (comps kv.2).map fun c =>
          (compKey kv.2 c, flux kv.2 c)).map (·.1) := by
        refine List.mem_map.2 ⟨(compKey kv.2 c, flux kv.2 c), ?_, rfl⟩
        exact List.mem_flatMap.2 ⟨kv, hkv, List.mem_map.2 ⟨c, hcm, rfl⟩⟩
      have hv : ∀ p ∈ ((modelMapping ds).flatMap fun kv => (comps kv.2).map fun c =>
          (compKey kv.2 c, flux kv.2 c)), p.1 = compKey kv.2 c → p.2 = flux kv.2 c := by
        intro p hp hpk
        obtain ⟨q, hq, hp⟩ := List.mem_flatMap.1 hp
        obtain ⟨c', hc', rfl⟩ := List.mem_map.1 hp
        obtain ⟨m', g1, g2, g3⟩ := modelMapping_rep ds q.1 q.2 hq
        have u1 : '_' ∉ c'.toList := hu _ g2 c' (by rw [← hc _ g2]; exact hc')
        have u2 : '_' ∉ c.toList := hu _ h2 c (by rw [← hc _ h2]; exact hcm)
        obtain ⟨k1, k2⟩ := compKey_inj hpk u1 u2
        rw [k1, k2]
      rw [IntensityEngine.entry, dictGet_fn _ _ _ _ hk hv, dictGet_fn _ _ _ _ hk hv, ef]
      rfl
    have := mapM_map _ _ _ hin
    rw [ec] at this ⊢
    rw [this]
    rfl
  refine ⟨_, mapM_map _ _ _ hstep, ?_, ?_⟩
  · rw [List.map_map]
    exact modelMapping_keys ds
  · intro d hd
    have hm : d.1 ∈ (modelMapping ds).map (·.1) :=
      (modelMapping_keys ds).mem_iff.2 (List.mem_map.2 ⟨d, hd, rfl⟩)
    obtain ⟨kv, hkv, hk⟩ := List.mem_map.1 hm
    refine ⟨_, List.mem_map.2 ⟨kv, hkv, by rw [hk]⟩, ?_, ?_⟩
    · rw [List.map_map]
      simp only [Function.comp_def, List.map_id']
      exact hc d hd
    · intro c hcm
      refine ⟨_, List.mem_map.2 ⟨c, by rw [hc d hd]; exact hcm, rfl⟩, ?_⟩
      rw [hf d hd c]
      exact report_spec E method _

example : compKey "nai" "PowerLaw" ≠ compKey "bgo" "PowerLaw" := by decide

/-- **C74** (components, refuted).  Names may contain underscores, and then two different components of two datasets can
share one internal label: component `b_c` of dataset `a` is reported with the standard error and the interval of
component `c` of dataset `a_b`. -/
theorem C74_labels_refuted (E : IntensityEngine P) (method : CiMethod) (f g : P → ℝ) :
    ∃ (ds : List (String × Nat)) (comps : String → List String) (flux : String → String → P → ℝ),
      (ds.map (·.1)).Nodup ∧ comps "a" = ["b_c"] ∧ flux "a" "b_c" = f ∧
      ∃ r, intensityComps E method ds comps flux = .ok r ∧
        ∃ x y, ("a", x) ∈ r ∧ ("b_c", y) ∈ x ∧ y.mle = f (E.over E.mle) * E.factor ∧
          y.se = E.se g * E.factor ∧ y.interval.1 = (E.interval method g).1 * E.factor := by
  refine ⟨[("a", 0), ("a_b", 1)], fun d => if d = "a" then ["b_c"] else ["c"],
    fun d _ => if d = "a" then f else g, by decide, rfl, rfl, ?_⟩
  have hm : modelMapping [("a", 0), ("a_b", 1)] = [("a", "a"), ("a_b", "a_b")] := by decide
  refine ⟨[("a", [("b_c", E.report (f (E.over E.mle)) (E.se g) (E.interval method g))]),
    ("a_b", [("c", E.report (g (E.over E.mle)) (E.se g) (E.interval method g))])], ?_, _, _,
    List.mem_cons_self .., List.mem_cons_self .., rfl, rfl, rfl⟩
  have hd : dictOf ([("a_b_c", f), ("a_b_c", g)] : List (String × (P → ℝ))) = [("a_b_c", g)] := by
    simp [dictOf, dictSet]
  have k1 : compKey "a" "b_c" = "a_b_c" := by decide
  have k2 : compKey "a_b" "c" = "a_b_c" := by decide
  have n1 : ("a_b" = "a") = False := by decide
  unfold intensityComps
  simp only [hm, List.flatMap_cons, List.flatMap_nil, List.append_nil, if_true, List.map_cons, List.map_nil, k1, k2, n1,
    if_false, List.singleton_append, hd, List.mapM_cons, List.mapM_nil, IntensityEngine.entry, dictGet, List.lookup_cons, beq_self_eq_true]
  rfl

/-! ## overriding parameters -/

/-- **C74** (override, bootstrap).  With the bootstrap, `params` replaces the parameters both in the best value and in every
bootstrap sample. -/
theorem C74_override_boot (E : IntensityEngine P) (o : P → P) (h : E.override = some o) (f : P → ℝ) (r : Intensity)
    (hr : Reported E .boot f r) :
    r.mle = E.factor * f (o E.mle) ∧
    r.interval = (E.factor * (E.quantile (E.samples.map fun p => f (o p))).1,
      E.factor * (E.quantile (E.samples.map fun p => f (o p))).2) := by
  have ho : E.over = o := by funext p; simp [IntensityEngine.over, h]
  refine ⟨by rw [hr.mle, ho], ?_⟩
  ext
  · rw [hr.lower]; simp [IntensityEngine.interval, ho]
  · rw [hr.upper]; simp [IntensityEngine.interval, ho]

/-- **C74** (override, refuted).  With the profile method the interval and the standard error ignore `params` (as the
warning says) but the reported value and the errors use it: for every fit whose search returns the interval
`[1/2, 3/2]` around the best fit `1`, overriding the parameter by `10` reports the value `10`, the interval `[1/2, 3/2]`
and two negative "errors". -/
theorem C74_override_refuted (E : IntensityEngine ℝ) (hE : E.mle = 1) (ho : E.override = some fun _ => 10)
    (hf : E.factor = 1) (hp : E.profile (fun p => Real.log p) = (Real.log (1 / 2), Real.log (3 / 2)))
    (r : Intensity) (hr : Reported E .profile (fun p => p) r) :
    r.mle = 10 ∧ r.interval = (1 / 2, 3 / 2) ∧ r.errors.1 < 0 ∧ r.errors.2 < 0 := by
  have hi : r.interval = (1 / 2, 3 / 2) := by
    ext
    · rw [hr.lower, hf]; simp only [IntensityEngine.interval, hp]
      rw [Real.exp_log (by norm_num)]; ring
    · rw [hr.upper, hf]; simp only [IntensityEngine.interval, hp]
      rw [Real.exp_log (by norm_num)]; ring
  have hm : r.mle = 10 := by rw [hr.mle, hf]; simp [IntensityEngine.over, ho]
  refine ⟨hm, hi, ?_, ?_⟩
  · rw [hr.errors, hi, hm]; norm_num
  · rw [hr.errors, hi, hm]; norm_num

/-- such a fit exists -/
noncomputable def exEngine : IntensityEngine ℝ :=
  ⟨1, some fun _ => 10, fun _ => 1, fun _ => (Real.log (1 / 2), Real.log (3 / 2)), [1, 2], fun _ => (0, 1), 1⟩

example : ∃ r, intensity exEngine .profile [("x", 0)] (fun _ p => p) = .ok r ∧
    ∃ x, ("x", x) ∈ r ∧ x.mle = 10 ∧ x.errors.2 < 0 := by
  obtain ⟨r, h1, _, h3⟩ := C74_datasets exEngine .profile [("x", 0)] (by simp) (fun _ p => p) (fun _ p => p)
    (fun _ _ => rfl)
  obtain ⟨x, hx, hr⟩ := h3 ("x", 0) (by simp)
  obtain ⟨k1, _, _, k4⟩ := C74_override_refuted exEngine rfl rfl rfl rfl x hr
  exact ⟨r, h1, x, hx, k1, k4⟩

/-! ## the logarithm -/

/-- **C74** (logarithm).  Searching the interval of the logarithm and exponentiating the ends gives the ends of the
interval of the flux itself: for every set `S` of parameters (those within the confidence region) on which the flux
is bounded and bounded away from zero. -/
theorem C74_log_invariant {Θ : Type} (S : Set Θ) (hS : S.Nonempty) (f : Θ → ℝ) (a b : ℝ) (ha : 0 < a)
    (hf : ∀ θ ∈ S, a ≤ f θ ∧ f θ ≤ b) :
    Real.exp (sInf ((fun θ => Real.log (f θ)) '' S)) = sInf (f '' S) ∧
    Real.exp (sSup ((fun θ => Real.log (f θ)) '' S)) = sSup (f '' S) := by
  have hpos : ∀ θ ∈ S, 0 < f θ := fun θ h => lt_of_lt_of_le ha (hf θ h).1
  have hne : ((fun θ => Real.log (f θ)) '' S).Nonempty := hS.image _
  have hbb : BddBelow ((fun θ => Real.log (f θ)) '' S) := by
    refine ⟨Real.log a, ?_⟩
    rintro _ ⟨θ, h, rfl⟩
    exact Real.log_le_log ha (hf θ h).1
  have hba : BddAbove ((fun θ => Real.log (f θ)) '' S) := by
    refine ⟨Real.log b, ?_⟩
    rintro _ ⟨θ, h, rfl⟩
    exact Real.log_le_log (hpos θ h) (hf θ h).2
  have himg : Real.exp '' ((fun θ => Real.log (f θ)) '' S) = f '' S := by
    rw [Set.image_image]
    apply Set.image_congr
    intro θ h
    exact Real.exp_log (hpos θ h)
  constructor
  · rw [← himg]
    exact Real.exp_monotone.map_csInf_of_continuousAt Real.continuous_exp.continuousAt hne hbb
  · rw [← himg]
    exact Real.exp_monotone.map_csSup_of_continuousAt Real.continuous_exp.continuousAt hne hba

example : Real.exp (sInf ((fun θ => Real.log (id θ)) '' Set.Icc (1 : ℝ) 2)) = 1 := by
  rw [(C74_log_invariant (Set.Icc (1 : ℝ) 2) ⟨1, by norm_num⟩ id 1 2 one_pos (fun _ h => h)).1, Set.image_id,
    csInf_Icc (by norm_num)]

/-- **C74** (unit flux, refuted).  The search divides by the logarithm of the flux at the best fit: if that flux is exactly
1 in the working unit, the function handed to the minimiser has no value anywhere. -/
theorem C74_unit_flux_refuted {Θ : Type} (D f : Θ → ℝ) (mle : Θ) (h : f mle = 1) (rtol : ℝ) :
    ∀ θ, jointLoss D (fun p => Real.log (f p)) rtol (ciStart (fun p => Real.log (f p)) mle).1 θ = none := by
  intro θ
  simp [jointLoss, ciStart, h]

/-! ## the distribution -/

/-- **C74** (distribution, refuted).  The distribution returned with the bootstrap intervals lists every model parameter as
if it were an intensity, and omits every dataset that shares the model of an earlier one. -/
theorem C74_dist_refuted (params : List String) (ds : List (String × Nat)) :
    (∀ p ∈ params, p ∈ distNames params ds) ∧
    (∀ k v, (k, v) ∈ modelMapping ds → k ≠ v → (ds.map (·.1)).Nodup → k ∉ params → k ∉ distNames params ds) := by
  have hk : ∀ k, k ∈ distNames params ds ↔ k ∈ params ∨ k ∈ (modelMapping ds).map (·.2) := by
    intro k
    unfold distNames
    rw [(dictOf_keys_nodup _).2 k]
    simp [List.map_append]
  refine ⟨fun p hp => (hk p).2 (.inl hp), fun k v hkv hne hn hp hmem => ?_⟩
  rcases (hk k).1 hmem with h | h
  · exact hp h
  · obtain ⟨q, hq, rfl⟩ := List.mem_map.1 h
    obtain ⟨_, _, _, h3⟩ := modelMapping_rep ds q.1 q.2 hq
    have hnd : ((modelMapping ds).map (·.1)).Nodup := (modelMapping_keys ds).nodup_iff.2 hn
    have := List.inj_on_of_nodup_map hnd hkv h3 rfl
    exact hne (congrArg Prod.snd this).symm

example : distNames ["alpha", "K"] [("a", 0), ("b", 0)] = ["alpha", "K", "a"] := by decide

end Elisa.Infer
