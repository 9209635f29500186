import Verif.Infer.ConvexProps
import Verif.Infer.RefusalProps
import Verif.Util.SuffixCfg
import Mathlib.Data.List.Perm.Basic

/-!
# C129: the order in which the data sets are given does not matter
-/

namespace Elisa.Infer.Order

open Elisa Elisa.Infer

/-- A user gives one object for all data sets, or one for each. -/
inductive Choice (E A : Type) where
  | same (x : A)
  | each (f : E → A)

/-- The object for one data set. -/
def Choice.get {E A : Type} : Choice E A → E → A
  | .same x, _ => x
  | .each f, e => f e

/-- The argument passed to the fit. -/
def Choice.argument {E A : Type} (es : List E) : Choice E A → OneOrMany A
  | .same x => .one x
  | .each f => .many (es.map f)

/-- A call of `Fit(data, model, stat)` for the data sets `es` in this order. -/
noncomputable def ask {E M : Type} (isAdd : M → Bool) (data : E → String × FitData) (model : Choice E M) (stat : Option (Choice E String))
    (es : List E) : Except PyErr (List (String × FitData) × List M × List Stat) :=
  parseInput isAdd (.many (es.map data)) (model.argument es) (stat.map (Choice.argument es))

/-- The statistic of one data set: the one asked for, if there is one of this name, or the default one. -/
def statOf {E : Type} (data : E → String × FitData) (stat : Option (Choice E String)) (e : E) : Option Stat :=
  match stat with
  | none => some (defaultStat (data e).2)
  | some c => readStat (c.get e)

section Lemmas

variable {E M : Type}

theorem paired_each {A : Type} (es : List E) (f : E → A) (ys : List A) : Paired (es.map f) es.length ys ↔ ys = es.map f := by
  unfold Paired
  constructor
  · rintro ⟨hl, ⟨x, hx, hy⟩ | h⟩
    · have h1 : es.length = 1 := by simpa using congrArg List.length hx
      rw [h1] at hl
      obtain ⟨y, rfl⟩ := List.length_eq_one_iff.1 hl
      rw [hx, hy y (by simp)]
    · exact h
  · rintro rfl
    exact ⟨by simp, Or.inr rfl⟩

theorem paired_same {A : Type} (es : List E) (x : A) (ys : List A) : Paired [x] es.length ys ↔ ys = es.map fun _ => x := by
  unfold Paired
  have hr : (es.map fun _ => x) = List.replicate es.length x := by simp
  rw [hr, List.eq_replicate_iff]
  constructor
  · rintro ⟨hl, ⟨x', hx, hy⟩ | h⟩
    · simp only [List.cons.injEq, and_true] at hx
      subst hx
      exact ⟨hl, hy⟩
    · subst h
      exact ⟨hl, by simp⟩
  · rintro ⟨hl, hy⟩
    exact ⟨hl, Or.inl ⟨x, rfl, hy⟩⟩

theorem paired_models (isAdd : M → Bool) (es : List E) (hne : es ≠ []) (model : Choice E M) (ms : List M) :
    (∃ ms0, Listed (model.argument es) ms0 ∧ (∀ m ∈ ms0, isAdd m = true) ∧ Paired ms0 es.length ms) ↔
      (∀ e ∈ es, isAdd (model.get e) = true) ∧ ms = es.map model.get := by
  cases model with
  | same x =>
    simp only [Choice.argument, Listed, exists_eq_left, List.mem_singleton, forall_eq, Choice.get]
    rw [paired_same]
    obtain ⟨e, he⟩ := List.exists_mem_of_ne_nil es hne
    constructor
    · rintro ⟨h1, h2⟩; exact ⟨fun _ _ => h1, h2⟩
    · rintro ⟨h1, h2⟩; exact ⟨h1 e he, h2⟩
  | each f =>
    have hn : es.map f ≠ [] := by simpa using hne
    constructor
    · rintro ⟨ms0, ⟨rfl, _⟩, ha, hp⟩
      rw [paired_each] at hp
      refine ⟨fun e he => ha _ (List.mem_map.2 ⟨e, he, rfl⟩), hp⟩
    · rintro ⟨ha, rfl⟩
      refine ⟨es.map f, ⟨rfl, hn⟩, ?_, (paired_each es f _).2 rfl⟩
      intro m hm
      obtain ⟨e, he, rfl⟩ := List.mem_map.1 hm
      exact ha e he

theorem mapM_option {A B : Type} (f : A → Option B) (xs : List A) (ys : List B) :
    xs.mapM f = some ys ↔ ys.map some = xs.map f := by
  induction xs generalizing ys with
  | nil =>
    simp only [List.mapM_nil, List.map_nil, List.map_eq_nil_iff]
    constructor
    · intro h; exact (Option.some.inj h).symm
    · rintro rfl; rfl
  | cons x xs ih =>
    rw [List.mapM_cons]
    cases ys with
    | nil =>
      cases h : f x <;> cases h2 : (xs.mapM f) <;> simp
    | cons y ys =>
      simp only [List.map_cons, List.cons.injEq]
      rw [← ih]
      cases h : f x with
      | none => simp
      | some u =>
        cases h2 : (xs.mapM f) with
        | none => simp
        | some v => simp [eq_comm]

theorem paired_stats (data : E → String × FitData) (stat : Option (Choice E String)) (es : List E) (hne : es ≠ []) (ss : List Stat) :
    (∃ ss0, RequestedStats (es.map data) (stat.map (Choice.argument es)) ss0 ∧ Paired ss0 es.length ss) ↔
      ss.map some = es.map (statOf data stat) := by
  have hsome : ∀ (f : E → Stat) (ss : List Stat), ss.map some = es.map (fun e => some (f e)) ↔ ss = es.map f := by
    intro f ss
    have : (es.map fun e => some (f e)) = (es.map f).map some := by simp
    rw [this]
    exact (List.map_injective_iff.2 (Option.some_injective _)).eq_iff
  cases stat with
  | none =>
    simp only [Option.map_none, RequestedStats, exists_eq_left, List.map_map]
    show Paired (es.map fun e => defaultStat (data e).2) _ _ ↔ ss.map some = es.map fun e => some (defaultStat (data e).2)
    rw [paired_each, hsome]
  | some c =>
    cases c with
    | same x =>
      simp only [Option.map_some, Choice.argument, RequestedStats]
      have hst : es.map (statOf data (some (.same x))) = es.map fun _ => readStat x := rfl
      rw [hst]
      cases hx : readStat x with
      | none =>
        obtain ⟨e, he⟩ := List.exists_mem_of_ne_nil es hne
        constructor
        · rintro ⟨_, ⟨t, ht, _⟩, _⟩; cases ht
        · intro h
          have : (none : Option Stat) ∈ ss.map some := by rw [h]; exact List.mem_map.2 ⟨e, he, rfl⟩
          simp at this
      | some t =>
        rw [hsome]
        constructor
        · rintro ⟨_, ⟨t', ht, rfl⟩, hp⟩
          obtain rfl := Option.some.inj ht
          exact (paired_same es t ss).1 hp
        · intro h
          exact ⟨[t], ⟨t, rfl, rfl⟩, (paired_same es t ss).2 h⟩
    | each f =>
      simp only [Option.map_some, Choice.argument, RequestedStats]
      have hst : es.map (statOf data (some (.each f))) = (es.map f).map readStat := by
        rw [List.map_map]; rfl
      rw [hst]
      constructor
      · rintro ⟨ss0, ⟨_, hm⟩, hp⟩
        rw [mapM_option] at hm
        have hl : ss0.length = es.length := by simpa using congrArg List.length hm
        have : ss = ss0 := by
          obtain ⟨h1, ⟨x, rfl, hy⟩ | h⟩ := hp
          · rw [← hl] at h1
            obtain ⟨y, rfl⟩ := List.length_eq_one_iff.1 h1
            rw [hy y (by simp)]
          · exact h
        rw [this]; exact hm
      · intro h
        have hl : ss.length = es.length := by simpa using congrArg List.length h
        exact ⟨ss, ⟨by simpa using hne, (mapM_option _ _ _).2 h⟩, hl, Or.inr rfl⟩

/-- What a fit accepts, and what it then uses. -/
theorem ask_ok (isAdd : M → Bool) (data : E → String × FitData) (model : Choice E M) (stat : Option (Choice E String)) (es : List E)
    (ds : List (String × FitData)) (ms : List M) (ss : List Stat) :
    ask isAdd data model stat es = .ok (ds, ms, ss) ↔
      es ≠ [] ∧ (es.map fun e => (data e).1).Nodup ∧ (∀ e ∈ es, isAdd (model.get e) = true) ∧
      (∀ e ∈ es, ∃ s, statOf data stat e = some s ∧ Admissible (data e).2 s) ∧
      ds = es.map data ∧ ms = es.map model.get ∧ ss.map some = es.map (statOf data stat) := by
  unfold ask
  rw [C44_parse_input]
  by_cases hne : es = []
  · subst hne
    simp [Listed]
  have hadm : ss.map some = es.map (statOf data stat) →
      ((∀ x ∈ (es.map data).zip ss, Admissible x.1.2 x.2) ↔ ∀ e ∈ es, ∃ s, statOf data stat e = some s ∧ Admissible (data e).2 s) := by
    intro h
    have hl : ss.length = es.length := by simpa using congrArg List.length h
    have hget : ∀ (i : Nat) e s, es[i]? = some e → ss[i]? = some s → statOf data stat e = some s := by
      intro i e s he hs
      have := congrArg (fun l : List (Option Stat) => l[i]?) h
      simp only [List.getElem?_map, he, hs, Option.map_some, Option.some.injEq] at this
      exact this.symm
    constructor
    · intro hx e he
      obtain ⟨i, hi⟩ := List.mem_iff_getElem?.1 he
      have hlt : i < es.length := (List.getElem?_eq_some_iff.1 hi).1
      have hs : ss[i]? = some (ss[i]'(by omega)) := List.getElem?_eq_getElem _
      refine ⟨ss[i]'(by omega), hget i e _ hi hs, ?_⟩
      refine hx (data e, ss[i]'(by omega)) (List.mem_iff_getElem?.2 ⟨i, ?_⟩)
      rw [List.getElem?_zip_eq_some]
      exact ⟨by rw [List.getElem?_map, hi]; rfl, hs⟩
    · intro hx x hxm
      obtain ⟨i, hi⟩ := List.mem_iff_getElem?.1 hxm
      obtain ⟨h1, h2⟩ := List.getElem?_zip_eq_some.1 hi
      rw [List.getElem?_map] at h1
      obtain ⟨e, he, hde⟩ := Option.map_eq_some_iff.1 h1
      obtain ⟨s, hs, ha⟩ := hx e (List.mem_of_getElem? he)
      have := hget i e x.2 he h2
      rw [this] at hs
      obtain rfl := Option.some.inj hs
      rw [← hde]; exact ha
  constructor
  · rintro ⟨⟨rfl, _⟩, hn, hm, hs, ha⟩
    rw [List.length_map] at hm hs
    rw [paired_models isAdd es hne] at hm
    rw [paired_stats data stat es hne] at hs
    refine ⟨hne, ?_, hm.1, (hadm hs).1 ha, rfl, hm.2, hs⟩
    rw [List.map_map] at hn
    exact hn
  · rintro ⟨_, hn, hm, ha, rfl, rfl, hs⟩
    refine ⟨⟨rfl, by simpa using hne⟩, by rw [List.map_map]; exact hn, ?_, ?_, (hadm hs).2 ha⟩
    · rw [List.length_map]
      exact (paired_models isAdd es hne model _).2 ⟨hm, rfl⟩
    · rw [List.length_map]
      exact (paired_stats data stat es hne ss).2 hs

/-- A model that is not additive is refused as such, whatever the statistics. -/
theorem ask_type (isAdd : M → Bool) (data : E → String × FitData) (model : Choice E M) (stat : Option (Choice E String)) (es : List E) :
    ask isAdd data model stat es = .error .typeError ↔
      es ≠ [] ∧ (es.map fun e => (data e).1).Nodup ∧ ∃ e ∈ es, isAdd (model.get e) = false := by
  constructor
  · intro h
    rcases C43_refused isAdd _ _ _ _ h with h1 | ⟨_, ⟨l, hl, hn⟩, l', hl', m, hm, ha⟩
    · cases h1
    · rw [toList_iff] at hl hl'
      obtain ⟨rfl, hne⟩ := hl
      have hne' : es ≠ [] := by simpa using hne
      rw [List.map_map] at hn
      refine ⟨hne', hn, ?_⟩
      cases model with
      | same x =>
        simp only [Choice.argument, Listed] at hl'
        subst hl'
        rw [List.mem_singleton] at hm
        subst hm
        obtain ⟨e, he⟩ := List.exists_mem_of_ne_nil es hne'
        exact ⟨e, he, ha⟩
      | each f =>
        obtain ⟨rfl, _⟩ := hl'
        obtain ⟨e, he, rfl⟩ := List.mem_map.1 hm
        exact ⟨e, he, ha⟩
  · rintro ⟨hne, hn, e, he, ha⟩
    have h1 : (OneOrMany.many (es.map data)).toList = .ok (es.map data) := (toList_iff _ _).2 ⟨rfl, by simpa using hne⟩
    have h2 : raiseIf (decide (((es.map data).map (·.1)).dedup.length ≠ (es.map data).length)) .valueError = .ok () := by
      rw [raiseIf_ok, decide_eq_false_iff_not, not_not, ← List.length_map (f := Prod.fst), dedup_length_iff, List.map_map]
      exact hn
    obtain ⟨ms, hms, m, hmem, hm⟩ : ∃ ms, (model.argument es).toList = .ok ms ∧ ∃ m ∈ ms, isAdd m = false := by
      cases model with
      | same x => exact ⟨[x], rfl, x, by simp, ha⟩
      | each f => exact ⟨es.map f, (toList_iff _ _).2 ⟨rfl, by simpa using hne⟩, f e, List.mem_map.2 ⟨e, he, rfl⟩, ha⟩
    have h3 : raiseIf (!(ms.all isAdd)) .typeError = .error .typeError := by
      have : ms.all isAdd = false := by
        rw [List.all_eq_false]
        exact ⟨m, hmem, by simp [hm]⟩
      simp [raiseIf, this]
    unfold ask parseInput
    rw [h1]
    simp only [bind, Except.bind]
    rw [h2]
    simp only
    rw [hms]
    simp only
    rw [h3]

/-- The triples of data set, model and statistic of an accepted fit. -/
theorem triples_eq (data : E → String × FitData) (model : E → M) (st : E → Option Stat) (es : List E) (ss : List Stat)
    (hs : ss.map some = es.map st) :
    ((es.map data).zip ((es.map model).zip ss)).map (fun x => (x.1, x.2.1, some x.2.2)) = es.map fun e => (data e, model e, st e) := by
  induction es generalizing ss with
  | nil => simp
  | cons e es ih =>
    cases ss with
    | nil => simp at hs
    | cons s ss =>
      simp only [List.map_cons, List.cons.injEq] at hs
      simp only [List.map_cons, List.zip_cons_cons, List.cons.injEq, ih ss hs.2, hs.1, and_true]

end Lemmas

/-- **C129 (the order of the data sets, input).**  Give the data sets in another order, each with its own model and statistic (or with one
model for all, one statistic for all, or the default statistics).  The fit is accepted as before, and pairs every data set with the model and
the statistic it had before; or it is refused as before, with the same kind of error. -/
theorem C129_input {E M : Type} (isAdd : M → Bool) (data : E → String × FitData) (model : Choice E M) (stat : Option (Choice E String))
    (es es' : List E) (hp : es.Perm es') :
    (∀ ds ms ss, ask isAdd data model stat es = .ok (ds, ms, ss) →
      ∃ ds' ms' ss', ask isAdd data model stat es' = .ok (ds', ms', ss') ∧
        (ds.zip (ms.zip ss)).Perm (ds'.zip (ms'.zip ss'))) ∧
    (∀ err, ask isAdd data model stat es = .error err → ask isAdd data model stat es' = .error err) := by
  have hnil : ∀ {a b : List E}, a.Perm b → a ≠ [] → b ≠ [] := by
    rintro a b h ha rfl
    exact ha (List.perm_nil.1 h)
  have fwd : ∀ es es' : List E, es.Perm es' → ∀ ds ms ss, ask isAdd data model stat es = .ok (ds, ms, ss) →
      ∃ ds' ms' ss', ask isAdd data model stat es' = .ok (ds', ms', ss') ∧ (ds.zip (ms.zip ss)).Perm (ds'.zip (ms'.zip ss')) := by
    intro es es' hp ds ms ss h
    rw [ask_ok] at h
    obtain ⟨hne, hn, hm, ha, rfl, rfl, hs⟩ := h
    have ha' : ∀ e ∈ es', ∃ s, statOf data stat e = some s ∧ Admissible (data e).2 s := fun e he => ha e (hp.mem_iff.2 he)
    obtain ⟨ss', hs'⟩ : ∃ ss' : List Stat, ss'.map some = es'.map (statOf data stat) := by
      clear hs hp hn hm ha
      induction es' with
      | nil => exact ⟨[], rfl⟩
      | cons e es' ih =>
        obtain ⟨s, h1, _⟩ := ha' e (by simp)
        obtain ⟨ss', h2⟩ := ih fun e he => ha' e (by simp [he])
        exact ⟨s :: ss', by simp [h1, h2]⟩
    refine ⟨es'.map data, es'.map model.get, ss', ?_, ?_⟩
    · rw [ask_ok]
      exact ⟨hnil hp hne, ((hp.map _).nodup_iff).1 hn, fun e he => hm e (hp.mem_iff.2 he), ha', rfl, rfl, hs'⟩
    · have hinj : Function.Injective fun x : (String × FitData) × M × Stat => (x.1, x.2.1, some x.2.2) := by
        rintro ⟨a, b, c⟩ ⟨a', b', c'⟩ h
        simp only [Prod.mk.injEq, Option.some.injEq] at h
        obtain ⟨rfl, rfl, rfl⟩ := h
        rfl
      rw [← List.map_perm_map_iff hinj, triples_eq data model.get _ es ss hs, triples_eq data model.get _ es' ss' hs']
      exact hp.map _
  refine ⟨fwd es es' hp, ?_⟩
  intro err h
  have hty : ∀ es es' : List E, es.Perm es' → ask isAdd data model stat es = .error .typeError →
      ask isAdd data model stat es' = .error .typeError := by
    intro es es' hp h
    rw [ask_type] at h ⊢
    obtain ⟨hne, hn, e, he, ha⟩ := h
    exact ⟨hnil hp hne, ((hp.map _).nodup_iff).1 hn, e, hp.mem_iff.1 he, ha⟩
  cases h' : ask isAdd data model stat es' with
  | ok out =>
    obtain ⟨ds, ms, ss⟩ := out
    obtain ⟨ds', ms', ss', h2, _⟩ := fwd es' es hp.symm ds ms ss h'
    rw [h] at h2
    cases h2
  | error err' =>
    rcases C43_refused isAdd _ _ _ _ h with rfl | ⟨rfl, _⟩
    · rcases C43_refused isAdd _ _ _ _ h' with rfl | ⟨rfl, _⟩
      · rfl
      · have := hty es' es hp.symm h'
        rw [h] at this
        cases this
    · rw [hty es es' hp h] at h'
      exact h'.symm

example := C129_input (fun _ : Unit => true) (fun i : Bool => (if i then "a" else "b", exFit)) (.same ()) none [true, false] [false, true] (List.Perm.swap _ _ _)

/-- `mapM` and the order of the list. -/
theorem mapM_perm {A B : Type} (f : A → Except PyErr B) (xs xs' : List A) (hp : xs.Perm xs') (ys : List B) (h : xs.mapM f = .ok ys) :
    ∃ ys', xs'.mapM f = .ok ys' ∧ ys.Perm ys' := by
  have key : ∀ (xs : List A) (ys : List B), xs.mapM f = .ok ys ↔ List.Forall₂ (fun x y => f x = .ok y) xs ys := by
    intro xs
    induction xs with
    | nil =>
      intro ys
      simp only [List.mapM_nil, List.forall₂_nil_left_iff]
      constructor
      · intro h; exact (Except.ok.inj h).symm
      · rintro rfl; rfl
    | cons x xs ih =>
      intro ys
      rw [List.mapM_cons]
      cases ys with
      | nil =>
        cases f x <;> cases (xs.mapM f) <;> simp [bind, Except.bind, pure, Except.pure]
      | cons y ys =>
        rw [List.forall₂_cons, ← ih]
        cases h1 : f x <;> cases h2 : (xs.mapM f) <;> simp [bind, Except.bind, pure, Except.pure]
  rw [key] at h
  obtain ⟨ys', h1, h2⟩ := List.perm_comp_forall₂ hp.symm h
  exact ⟨ys', (key _ _).2 h1, h2.symm⟩

/-- **C129 (the order of the data sets, result).**  For given spectra of the models, the likelihood of the data sets in another order exists when
it did before; every data set has the terms it had before; and the total of the statistics, the number of channels, the degrees of freedom and
both information criteria are the same. -/
theorem C129_result (ds ds' : List (Stat × FitData × List ℝ)) (hp : ds.Perm ds') (sites : List Sites) (h : fitSites ds = .ok sites) :
    ∃ sites', fitSites ds' = .ok sites' ∧ sites.Perm sites' ∧
      (deviance (getLoglike sites')).total = (deviance (getLoglike sites)).total ∧
      (deviance (getLoglike sites)).group.Perm (deviance (getLoglike sites')).group ∧
      ∀ k : Nat, dof (ds'.map (·.2.1)) k = dof (ds.map (·.2.1)) k ∧
        aic (deviance (getLoglike sites')).total k (ndataTotal (ds'.map (·.2.1))) =
          aic (deviance (getLoglike sites)).total k (ndataTotal (ds.map (·.2.1))) ∧
        bic (deviance (getLoglike sites')).total k (ndataTotal (ds'.map (·.2.1))) =
          bic (deviance (getLoglike sites)).total k (ndataTotal (ds.map (·.2.1))) := by
  obtain ⟨sites', h1, h2⟩ := mapM_perm _ ds ds' hp sites h
  have ht : (deviance (getLoglike sites')).total = (deviance (getLoglike sites)).total := by
    rw [fitSites_total ds sites h, fitSites_total ds' sites' h1]
    exact ((hp.map devOf).sum_eq).symm
  have hn : ndataTotal (ds'.map (·.2.1)) = ndataTotal (ds.map (·.2.1)) := by
    unfold ndataTotal
    exact (((hp.map (·.2.1)).map FitData.size).sum_eq).symm
  refine ⟨sites', h1, h2, ht, ?_, ?_⟩
  · simp only [deviance, getLoglike]
    exact ((h2.map _).map _).map _
  · intro k
    refine ⟨?_, ?_, ?_⟩
    · unfold dof; rw [hn]
    · rw [ht, hn]
    · rw [ht, hn]

/-- **C129 (the names depend on the order).**  A component that is part of the models of two out of three data sets is named after these two
data sets in the order given; in another order, the same component has another name, and so have its parameters. -/
theorem C129_names :
    Elisa.Util.Suffix.dataSuffix ["nai", "bgo", "gbd"] (fun n => n = "nai" || n = "bgo") = "nai+bgo" ∧
    Elisa.Util.Suffix.dataSuffix ["bgo", "nai", "gbd"] (fun n => n = "nai" || n = "bgo") = "bgo+nai" ∧
    ["nai", "bgo", "gbd"].Perm ["bgo", "nai", "gbd"] := by
  refine ⟨by decide, by decide, ?_⟩
  exact List.Perm.swap _ _ _

/-- Two data sets with a model for both. -/
example : ∃ out, ask (fun _ : Unit => true) (fun i : Bool => (if i then "a" else "b", exFit)) (.same ()) none [true, false] = .ok out := by
  refine ⟨([("a", exFit), ("b", exFit)], [(), ()], [.wstat, .wstat]), ?_⟩
  rw [ask_ok]
  refine ⟨by simp, by decide, by simp, ?_, rfl, rfl, ?_⟩
  · intro e _
    refine ⟨.wstat, by simp [statOf, defaultStat, exFit], by simp [Admissible, exFit]⟩
  · simp [statOf, defaultStat, exFit]

/-- Two data sets with different statistics. -/
example : ∃ sites, fitSites ([Stat.wstat, .pgstat].map fun s => (s, exFit, [2])) = .ok sites := by
  obtain ⟨sites, h1, _⟩ := C25_fit ([Stat.wstat, .pgstat].map fun s => (s, exFit, [2])) (fun _ _ => 2) (by
      intro i hi
      rw [List.getElem_map]
      exact ⟨exFit_usable _, exFit_inRange _⟩)
  exact ⟨sites, h1⟩

end Elisa.Infer.Order
