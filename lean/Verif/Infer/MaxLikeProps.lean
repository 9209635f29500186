import Verif.Infer.MaxLike
import Verif.Infer.IntensityProps

/-!
# C79: `mle` starts where the user says, with the user's settings, whatever happened before

The specification (`startValue`, `assembles`) does not use the model's own merging.
-/

namespace Elisa.Infer

open Elisa

section Spec

variable {V : Type}

/-- The value a parameter starts from: the last one the user gave for its name, otherwise its default. -/
def startValue (t : FreeTable V) (init : Option (List (String × V))) (n : String) : Option V :=
  match (init.getD []).reverse.lookup n with
  | some v => some v
  | none => t.default.lookup n

/-- The parameter table of a fit: every free parameter has a name of its own and one default. -/
structure FreeTable.WF (t : FreeTable V) : Prop where
  nodup : t.names.Nodup
  names : t.default.map (·.1) = t.names

/-- `vals` are the start values of the free parameters, in the order of the parameters. -/
def StartVec (t : FreeTable V) (init : Option (List (String × V))) (vals : List V) : Prop :=
  vals.length = t.names.length ∧ ∀ (i : Nat) n, t.names[i]? = some n → vals[i]? = startValue t init n

end Spec

section Lemmas

variable {V K R : Type}

theorem dictOf_lookup (l : List (String × V)) (n : String) : (dictOf l).lookup n = l.reverse.lookup n := by
  induction l using List.reverseRecOn with
  | nil => rfl
  | append_singleton ps x ih =>
    obtain ⟨a, b⟩ := x
    rw [dictOf_snoc, dictSet_lookup, ih]
    simp only [List.reverse_append, List.reverse_cons, List.reverse_nil, List.nil_append,
      List.singleton_append, List.lookup_cons]
    by_cases h : n = a
    · subst h; simp
    · have hb : (n == a) = false := by simpa using h
      simp [h, hb]

theorem foldl_dictSet_lookup (l d : List (String × V)) (n : String) :
    (l.foldl (fun d x => dictSet d x.1 x.2) d).lookup n =
      match l.reverse.lookup n with
      | some v => some v
      | none => d.lookup n := by
  induction l using List.reverseRecOn with
  | nil => rfl
  | append_singleton ps x ih =>
    obtain ⟨a, b⟩ := x
    rw [List.foldl_append, List.foldl_cons, List.foldl_nil, dictSet_lookup, ih]
    simp only [List.reverse_append, List.reverse_cons, List.reverse_nil, List.nil_append,
      List.singleton_append, List.lookup_cons]
    by_cases h : n = a
    · subst h; simp
    · have hb : (n == a) = false := by simpa using h
      simp [h, hb]

theorem lookup_reverse_nodup (l : List (String × V)) (h : (l.map (·.1)).Nodup) (n : String) :
    l.reverse.lookup n = l.lookup n := by
  rw [← dictOf_lookup, dictOf_nodup l h]

theorem mergeInit_lookup (t : FreeTable V) (init : Option (List (String × V))) (n : String) :
    (mergeInit t.default init).lookup n = startValue t init n := by
  cases init with
  | none => rfl
  | some l =>
    unfold mergeInit
    rw [foldl_dictSet_lookup, lookup_reverse_nodup _ (dictOf_keys_nodup l).1, dictOf_lookup]
    rfl

theorem lookup_isSome_of_mem (l : List (String × V)) (n : String) (h : n ∈ l.map (·.1)) :
    ∃ v, l.lookup n = some v := by
  induction l with
  | nil => simp at h
  | cons x l ih =>
    obtain ⟨a, b⟩ := x
    rw [List.lookup_cons]
    by_cases hn : n = a
    · subst hn; exact ⟨b, by simp⟩
    · simp only [List.map_cons, List.mem_cons, hn, false_or] at h
      obtain ⟨v, hv⟩ := ih h
      have hb : (n == a) = false := by simpa using hn
      exact ⟨v, by simp [hb, hv]⟩

theorem startValue_some (t : FreeTable V) (h : t.WF) (init : Option (List (String × V))) (n : String)
    (hn : n ∈ t.names) : ∃ v, startValue t init n = some v := by
  unfold startValue
  cases hl : (init.getD []).reverse.lookup n with
  | some v => exact ⟨v, rfl⟩
  | none =>
    rw [← h.names] at hn
    exact lookup_isSome_of_mem _ _ hn

theorem start_exists (t : FreeTable V) (h : t.WF) (init : Option (List (String × V))) :
    ∃ vals, StartVec t init vals ∧ dicToArr t.names (mergeInit t.default init) = .ok vals := by
  have hs := startValue_some t h init
  obtain ⟨g, hg⟩ : ∃ g : {n // n ∈ t.names} → V, ∀ n, startValue t init n.1 = some (g n) :=
    ⟨fun n => (hs n.1 n.2).choose, fun n => (hs n.1 n.2).choose_spec⟩
  refine ⟨t.names.attach.map g, ⟨by simp, ?_⟩, ?_⟩
  · intro i n hi
    have hm : n ∈ t.names := List.mem_of_getElem? hi
    have hi' : t.names.attach[i]? = some ⟨n, hm⟩ := by
      obtain ⟨hlt, he⟩ := List.getElem?_eq_some_iff.1 hi
      rw [List.getElem?_eq_some_iff]
      exact ⟨by simpa using hlt, by simp [he]⟩
    rw [List.getElem?_map, hi', hg ⟨n, hm⟩]
    rfl
  · unfold dicToArr
    rw [mapM_ok_iff]
    refine ⟨by simp, ?_⟩
    intro i n hi
    have hm : n ∈ t.names := List.mem_of_getElem? hi
    have hi' : t.names.attach[i]? = some ⟨n, hm⟩ := by
      obtain ⟨hlt, he⟩ := List.getElem?_eq_some_iff.1 hi
      rw [List.getElem?_eq_some_iff]
      exact ⟨by simpa using hlt, by simp [he]⟩
    refine ⟨g ⟨n, hm⟩, by rw [List.getElem?_map, hi']; rfl, ?_⟩
    unfold dictGet
    rw [mergeInit_lookup, hg ⟨n, hm⟩]

theorem startVec_unique (t : FreeTable V) (init : Option (List (String × V))) (a b : List V)
    (ha : StartVec t init a) (hb : StartVec t init b) : a = b := by
  apply List.ext_getElem?
  intro i
  cases hi : t.names[i]? with
  | some n => rw [ha.2 i n hi, hb.2 i n hi]
  | none =>
    rw [List.getElem?_eq_none_iff] at hi
    rw [List.getElem?_eq_none (ha.1 ▸ hi), List.getElem?_eq_none (hb.1 ▸ hi)]

theorem start_eq (e : Engines V K R) (t : FreeTable V) (h : t.WF) (init : Option (List (String × V)))
    (vals : List V) (hv : StartVec t init vals) :
    dicToUnconstr e t.names (mergeInit t.default init) = e.unconstr vals := by
  obtain ⟨w, hw, he⟩ := start_exists t h init
  rw [startVec_unique t init w vals hw hv] at he
  unfold dicToUnconstr
  rw [he]
  rfl

end Lemmas

section Claims

variable {V K R : Type} [AddCommMonoid K] [LinearOrder K]

/-- **C79 (start and settings).**  Whatever was called before, `mle` with the default method runs Minuit
from the user's values (the last one given for each name), the defaults filling the gaps, in the order of
the parameters, with the step limit and flags of this very call; and the vector is always well defined. -/
theorem C79_start (e : Engines V K R) (t : FreeTable V) (h : t.WF) (history : List (MleCall V))
    (c : MleCall V) (hm : c.method = "minuit") :
    ∃ vals, StartVec t c.init vals ∧
      (mle e t (mleHistory e t history) c).2 =
        (e.unconstr vals >>= e.minuit ⟨c.maxSteps.getD 131072, c.throw, c.verbose⟩) := by
  obtain ⟨vals, hv, -⟩ := start_exists t h c.init
  refine ⟨vals, hv, ?_⟩
  unfold mle
  rw [start_eq e t h c.init vals hv]
  cases hu : e.unconstr vals with
  | error err => rfl
  | ok u => simp [mleStart, hm, bind, Except.bind]

/-- **C79 (names that are not free parameters).**  Values given for names that are not free parameters
(misspelt, fixed or composite ones) never have any effect: no error, no change of the result. -/
theorem C79_unknown_ignored (e : Engines V K R) (t : FreeTable V) (h : t.WF) (s : Session V K)
    (c : MleCall V) (init : List (String × V)) (hi : c.init = some init) :
    mle e t s { c with init := some (init.filter fun x => x.1 ∈ t.names) } = mle e t s c := by
  have hl : ∀ (l : List (String × V)) n, n ∈ t.names →
      (l.filter fun x => x.1 ∈ t.names).lookup n = l.lookup n := by
    intro l n hn
    induction l with
    | nil => rfl
    | cons x l ih =>
      obtain ⟨a, b⟩ := x
      by_cases ha : a ∈ t.names
      · rw [List.filter_cons_of_pos (by simpa using ha), List.lookup_cons, List.lookup_cons, ih]
      · have : n ≠ a := by rintro rfl; exact ha hn
        rw [List.filter_cons_of_neg (by simpa using ha), ih, List.lookup_cons]
        have hb : (n == a) = false := by simpa using this
        simp [hb]
  obtain ⟨vals, hv, -⟩ := start_exists t h c.init
  have hv' : StartVec t (some (init.filter fun x => x.1 ∈ t.names)) vals := by
    refine ⟨hv.1, fun i n hn => ?_⟩
    rw [hv.2 i n hn, hi]
    have hmem : n ∈ t.names := List.mem_of_getElem? hn
    simp only [startValue, Option.getD_some]
    rw [← List.filter_reverse, hl init.reverse n hmem]
  unfold mle
  rw [start_eq e t h c.init vals hv, start_eq e t h _ vals hv']
  rfl

/-- A call that gets as far as choosing the method. -/
def Assembles (e : Engines V K R) (t : FreeTable V) (c : MleCall V) : Prop :=
  ∃ vals u, StartVec t c.init vals ∧ e.unconstr vals = .ok u

theorem not_assembles_error (e : Engines V K R) (t : FreeTable V) (h : t.WF) (c : MleCall V)
    (ha : ¬ Assembles e t c) : ∃ err, dicToUnconstr e t.names (mergeInit t.default c.init) = .error err := by
  obtain ⟨vals, hv, -⟩ := start_exists t h c.init
  rw [start_eq e t h c.init vals hv]
  cases hu : e.unconstr vals with
  | error err => exact ⟨err, rfl⟩
  | ok u => exact absurd ⟨vals, u, hv, hu⟩ ha

theorem assembles_ok (e : Engines V K R) (t : FreeTable V) (h : t.WF) (c : MleCall V) (vals u : List V)
    (hv : StartVec t c.init vals) (hu : e.unconstr vals = .ok u) :
    dicToUnconstr e t.names (mergeInit t.default c.init) = .ok u := by
  rw [start_eq e t h c.init vals hv, hu]

/-- The settings of a call, as `lm` would get them. -/
def MleCall.lmSettings (c : MleCall V) : LmSettings := ⟨c.maxSteps.getD 131072, c.throw, c.verbose⟩

/-- The settings of a call, as `ns` would get them. -/
def MleCall.nsSettings (c : MleCall V) : NsSettings := ⟨c.maxSteps.getD 131072, c.verbose⟩

/-- One step of the caches. -/
theorem mle_step (e : Engines V K R) (t : FreeTable V) (h : t.WF) (s : Session V K) (c : MleCall V) :
    (Assembles e t c → c.method = "lm" → (mle e t s c).1 = { s with lm := some (s.lm.getD c.lmSettings) }) ∧
    (Assembles e t c → c.method = "ns" → (mle e t s c).1 =
      { s with ns := some (s.ns.getD (match c.crash with | some _ => none | none => some (e.ns c.nsSettings))) }) ∧
    ((¬ Assembles e t c ∨ (c.method ≠ "lm" ∧ c.method ≠ "ns")) → (mle e t s c).1 = s) := by
  refine ⟨?_, ?_, ?_⟩
  · rintro ⟨vals, u, hv, hu⟩ hm
    unfold mle
    rw [assembles_ok e t h c vals u hv hu]
    simp only [mleStart, hm, if_true, optimizeLm]
    obtain ⟨l, n⟩ := s
    cases l <;> rfl
  · rintro ⟨vals, u, hv, hu⟩ hm
    unfold mle
    rw [assembles_ok e t h c vals u hv hu]
    have : ("ns" : String) ≠ "lm" := by decide
    simp only [mleStart, hm, if_true, if_neg this, optimizeNs]
    obtain ⟨l, n⟩ := s
    cases n with
    | some r => rfl
    | none => cases hc : c.crash <;> rfl
  · intro ho
    by_cases ha : Assembles e t c
    · obtain ⟨h1, h2⟩ := ho.resolve_left (not_not.2 ha)
      obtain ⟨vals, u, hv, hu⟩ := ha
      unfold mle
      rw [assembles_ok e t h c vals u hv hu]
      simp only [mleStart, if_neg h1, if_neg h2]
      split <;> rfl
    · obtain ⟨err, he⟩ := not_assembles_error e t h c ha
      unfold mle
      rw [he]

/-- **C79 (unknown method).**  A method other than the three documented ones always fails, whatever came
before, and changes nothing in the fit. -/
theorem C79_unknown_method (e : Engines V K R) (t : FreeTable V) (h : t.WF) (history : List (MleCall V))
    (c : MleCall V) (h1 : c.method ≠ "lm") (h2 : c.method ≠ "ns") (h3 : c.method ≠ "minuit") :
    (∃ err, (mle e t (mleHistory e t history) c).2 = .error err) ∧
      mleHistory e t (history ++ [c]) = mleHistory e t history := by
  refine ⟨?_, ?_⟩
  · obtain ⟨vals, hv, -⟩ := start_exists t h c.init
    unfold mle
    rw [start_eq e t h c.init vals hv]
    cases hu : e.unconstr vals with
    | error err => exact ⟨err, rfl⟩
    | ok u => exact ⟨.valueError, by simp [mleStart, h1, h2, h3, bind, Except.bind]⟩
  · unfold mleHistory
    rw [List.foldl_append, List.foldl_cons, List.foldl_nil, (mle_step e t h _ c).2.2 (.inr ⟨h1, h2⟩)]

open Classical in
/-- The first call of a history that got as far as using a given method. -/
noncomputable def firstUse (e : Engines V K R) (t : FreeTable V) (method : String) (history : List (MleCall V)) :
    Option (MleCall V) :=
  history.find? fun c => decide (Assembles e t c ∧ c.method = method)

open Classical in
theorem firstUse_snoc (e : Engines V K R) (t : FreeTable V) (m : String) (cs : List (MleCall V)) (c : MleCall V) :
    firstUse e t m (cs ++ [c]) =
      match firstUse e t m cs with
      | some d => some d
      | none => if Assembles e t c ∧ c.method = m then some c else none := by
  unfold firstUse
  rw [List.find?_append]
  cases hf : List.find? (fun c => decide (Assembles e t c ∧ c.method = m)) cs with
  | some d => rfl
  | none =>
    by_cases hc : Assembles e t c ∧ c.method = m
    · simp [hc]
    · simp [hc]

theorem history_caches (e : Engines V K R) (t : FreeTable V) (h : t.WF) (cs : List (MleCall V)) :
    (mleHistory e t cs).lm = (firstUse e t "lm" cs).map MleCall.lmSettings ∧
    (mleHistory e t cs).ns = (firstUse e t "ns" cs).map (fun c =>
      match c.crash with | some _ => none | none => some (e.ns c.nsSettings)) := by
  induction cs using List.reverseRecOn with
  | nil => simp [mleHistory, Session.fresh, firstUse]
  | append_singleton cs c ih =>
    have hh : mleHistory e t (cs ++ [c]) = (mle e t (mleHistory e t cs) c).1 := by
      unfold mleHistory; rw [List.foldl_append]; rfl
    rw [hh, firstUse_snoc, firstUse_snoc]
    obtain ⟨s1, s2, s3⟩ := mle_step e t h (mleHistory e t cs) c
    by_cases ha : Assembles e t c
    · by_cases h1 : c.method = "lm"
      · rw [s1 ha h1]
        have h2 : c.method ≠ "ns" := by rw [h1]; decide
        constructor
        · rw [ih.1]
          cases firstUse e t "lm" cs <;> simp [ha, h1]
        · rw [ih.2]
          cases firstUse e t "ns" cs <;> simp [h2]
      · by_cases h2 : c.method = "ns"
        · rw [s2 ha h2]
          constructor
          · rw [ih.1]
            cases firstUse e t "lm" cs <;> simp [h1]
          · rw [ih.2]
            cases firstUse e t "ns" cs <;> simp [ha, h2]
        · rw [s3 (.inr ⟨h1, h2⟩), ih.1, ih.2]
          constructor
          · cases firstUse e t "lm" cs <;> simp [h1]
          · cases firstUse e t "ns" cs <;> simp [h2]
    · rw [s3 (.inl ha), ih.1, ih.2]
      constructor
      · cases firstUse e t "lm" cs <;> simp [ha]
      · cases firstUse e t "ns" cs <;> simp [ha]

/-- **C79 (Levenberg-Marquardt, what actually happens).**  With `method='lm'` the start vector is this
call's, and Minuit gets this call's settings, but the Levenberg-Marquardt search uses the step limit,
`throw` and `verbose` of the *first* `lm` call ever made on this fit (this one only if there was none). -/
theorem C79_lm (e : Engines V K R) (t : FreeTable V) (h : t.WF) (history : List (MleCall V))
    (c : MleCall V) (hm : c.method = "lm") :
    ∃ vals, StartVec t c.init vals ∧
      (mle e t (mleHistory e t history) c).2 =
        (do let u ← e.unconstr vals
            let x ← e.lm ((firstUse e t "lm" history).getD c).lmSettings u
            e.minuit ⟨c.maxSteps.getD 131072, c.throw, c.verbose⟩ x) := by
  obtain ⟨vals, hv, -⟩ := start_exists t h c.init
  refine ⟨vals, hv, ?_⟩
  unfold mle
  rw [start_eq e t h c.init vals hv]
  cases hu : e.unconstr vals with
  | error err => rfl
  | ok u =>
    simp only [mleStart, hm, if_true, optimizeLm, (history_caches e t h history).1]
    cases firstUse e t "lm" history <;> rfl

/-- **C79 (Levenberg-Marquardt, partial).**  If every earlier `lm` call used the settings of this one, the
outcome is that of a fresh fit.  Missing: histories in which the settings differ (see
`C79_lm_refuted`). -/
theorem C79_lm_partial (e : Engines V K R) (t : FreeTable V) (h : t.WF) (history : List (MleCall V))
    (c : MleCall V) (hm : c.method = "lm")
    (hs : ∀ d ∈ history, d.method = "lm" →
      d.maxSteps.getD 131072 = c.maxSteps.getD 131072 ∧ d.throw = c.throw ∧ d.verbose = c.verbose) :
    (mle e t (mleHistory e t history) c).2 = (mle e t Session.fresh c).2 := by
  obtain ⟨vals, hv, hr⟩ := C79_lm e t h history c hm
  obtain ⟨vals', hv', hr'⟩ := C79_lm e t h [] c hm
  have : mleHistory e t [] = (Session.fresh : Session V K) := rfl
  rw [this] at hr'
  rw [hr, hr', startVec_unique t c.init vals' vals hv' hv]
  have hf : ((firstUse e t "lm" history).getD c).lmSettings = c.lmSettings := by
    cases hf : firstUse e t "lm" history with
    | none => rfl
    | some d =>
      have hd := List.find?_some hf
      have hmem := List.mem_of_find?_eq_some hf
      simp only [decide_eq_true_eq] at hd
      obtain ⟨h1, h2, h3⟩ := hs d hmem hd.2
      simp [MleCall.lmSettings, h1, h2, h3]
  rw [hf]
  rfl

/-- **C79 (nested sampling, partial).**  If no search was interrupted and every earlier `ns` call used the
settings of this one, Minuit starts from a sample of the search whose total log-likelihood is the largest
of all samples, whatever `init` was; and the outcome is that of a fresh fit.  Missing: histories with other
settings or an interrupted search (see `C79_ns_interrupted`, `C79_ns_refuted`). -/
theorem C79_ns_partial (e : Engines V K R) (t : FreeTable V) (h : t.WF) (history : List (MleCall V))
    (c : MleCall V) (hm : c.method = "ns") (hcr : c.crash = none)
    (hs : ∀ d ∈ history, d.method = "ns" → d.crash = none ∧
      d.maxSteps.getD 131072 = c.maxSteps.getD 131072 ∧ d.verbose = c.verbose) :
    (mle e t (mleHistory e t history) c).2 = (mle e t Session.fresh c).2 ∧
    ∀ r, (mle e t (mleHistory e t history) c).2 = .ok r →
      ∃ best ∈ e.ns ⟨c.maxSteps.getD 131072, c.verbose⟩,
        (∀ x ∈ e.ns ⟨c.maxSteps.getD 131072, c.verbose⟩,
          (x.loglike.map List.sum).sum ≤ (best.loglike.map List.sum).sum) ∧
        ∃ vals u, t.names.map (fun n => best.values.lookup n) = vals.map some ∧ e.unconstr vals = .ok u ∧
          e.minuit ⟨c.maxSteps.getD 131072, c.throw, c.verbose⟩ u = .ok r := by
  have hns : ∀ cs : List (MleCall V), (∀ d ∈ cs, d.method = "ns" → d.crash = none ∧
      d.maxSteps.getD 131072 = c.maxSteps.getD 131072 ∧ d.verbose = c.verbose) →
      (mle e t (mleHistory e t cs) c).2 = (match dicToUnconstr e t.names (mergeInit t.default c.init) with
        | .error err => .error err
        | .ok _ => nsBest e t.names (some (e.ns c.nsSettings)) >>=
            e.minuit ⟨c.maxSteps.getD 131072, c.throw, c.verbose⟩) := by
    intro cs hs
    unfold mle
    cases dicToUnconstr e t.names (mergeInit t.default c.init) with
    | error err => rfl
    | ok u =>
      have hne : ("ns" : String) ≠ "lm" := by decide
      simp only [mleStart, hm, if_true, if_neg hne, optimizeNs, (history_caches e t h cs).2, hcr]
      cases hf : firstUse e t "ns" cs with
      | none => rfl
      | some d =>
        have hd := List.find?_some hf
        have hmem := List.mem_of_find?_eq_some hf
        simp only [decide_eq_true_eq] at hd
        obtain ⟨h1, h2, h3⟩ := hs d hmem hd.2
        simp only [Option.map_some, h1, MleCall.nsSettings, h2, h3]
  refine ⟨?_, ?_⟩
  · rw [hns history hs]
    exact (hns [] (by simp)).symm
  · intro r hr
    rw [hns history hs] at hr
    cases hd : dicToUnconstr e t.names (mergeInit t.default c.init) with
    | error err => rw [hd] at hr; simp at hr
    | ok u0 =>
      rw [hd] at hr
      simp only [nsBest, argmaxBy] at hr
      cases ham : (e.ns c.nsSettings).argmax NsSample.total with
      | none => rw [ham] at hr; simp [bind, Except.bind] at hr
      | some best =>
        rw [ham] at hr
        refine ⟨best, List.argmax_mem ham, fun x hx => List.le_of_mem_argmax (f := NsSample.total) hx ham, ?_⟩
        simp only [bind, Except.bind] at hr
        cases hmp : t.names.mapM (m := Except PyErr) fun i => (dictGet best.values i).map fun v => (i, v) with
        | error err => rw [hmp] at hr; simp at hr
        | ok pairs =>
          rw [hmp] at hr
          simp only at hr
          rw [mapM_ok_iff] at hmp
          have hpair : ∀ (i : Nat) n, t.names[i]? = some n →
              ∃ v, best.values.lookup n = some v ∧ pairs[i]? = some (n, v) := by
            intro i n hi
            obtain ⟨y, hy, hg⟩ := hmp.2 i n hi
            unfold dictGet at hg
            cases hl : best.values.lookup n with
            | none => rw [hl] at hg; simp [Except.map] at hg
            | some v =>
              rw [hl] at hg
              simp only [Except.map, Except.ok.injEq] at hg
              exact ⟨v, rfl, by rw [hy, hg]⟩
          have hkeys : pairs.map (·.1) = t.names := by
            apply List.ext_getElem?
            intro i
            rw [List.getElem?_map]
            cases hi : t.names[i]? with
            | some n => obtain ⟨v, -, hp⟩ := hpair i n hi; rw [hp]; rfl
            | none =>
              rw [List.getElem?_eq_none_iff] at hi
              rw [List.getElem?_eq_none (by rw [← hmp.1]; exact hi)]; rfl
          have harr : dicToArr t.names pairs = .ok (pairs.map (·.2)) := by
            unfold dicToArr
            rw [mapM_ok_iff]
            refine ⟨by rw [List.length_map, hmp.1], fun i n hi => ?_⟩
            obtain ⟨v, -, hp⟩ := hpair i n hi
            refine ⟨v, by rw [List.getElem?_map, hp]; rfl, ?_⟩
            have hz : pairs.lookup n = some v := by
              have hzip : pairs = (pairs.map (·.1)).zip (pairs.map (·.2)) := by
                rw [List.zip_map']; simp
              rw [hzip, lookup_zip _ _ (by rw [hkeys]; exact h.nodup) i n (by rw [hkeys]; exact hi),
                List.getElem?_map, hp]
              rfl
            unfold dictGet
            rw [hz]
          unfold dicToUnconstr at hr
          rw [harr] at hr
          simp only [bind, Except.bind] at hr
          cases hu : e.unconstr (pairs.map (·.2)) with
          | error err => rw [hu] at hr; simp at hr
          | ok u =>
            rw [hu] at hr
            refine ⟨pairs.map (·.2), u, ?_, hu, hr⟩
            apply List.ext_getElem?
            intro i
            rw [List.getElem?_map, List.map_map, List.getElem?_map]
            cases hi : t.names[i]? with
            | some n =>
              obtain ⟨v, hv, hp⟩ := hpair i n hi
              rw [hp]; simp [hv]
            | none =>
              rw [List.getElem?_eq_none_iff] at hi
              rw [List.getElem?_eq_none (by rw [← hmp.1]; exact hi)]; rfl

/-- **C79 (interrupted search).**  If the first nested-sampling search on a fit is interrupted, then every
later call with `method='ns'` on that fit fails, for ever, whatever is called in between. -/
theorem C79_ns_interrupted (e : Engines V K R) (t : FreeTable V) (h : t.WF)
    (before after : List (MleCall V)) (c d : MleCall V) (err : PyErr)
    (hb : ∀ x ∈ before, x.method ≠ "ns")
    (hc : c.method = "ns") (ha : Assembles e t c) (hcr : c.crash = some err) (hd : d.method = "ns") :
    ∃ err', (mle e t (mleHistory e t (before ++ c :: after)) d).2 = .error err' := by
  have hf : firstUse e t "ns" (before ++ c :: after) = some c := by
    classical
    unfold firstUse
    rw [List.find?_append, List.find?_eq_none.2 (by
      intro x hx
      simp [hb x hx])]
    simp [ha, hc]
  have hcache := (history_caches e t h (before ++ c :: after)).2
  rw [hf] at hcache
  simp only [Option.map_some, hcr] at hcache
  unfold mle
  cases dicToUnconstr e t.names (mergeInit t.default d.init) with
  | error err => exact ⟨err, rfl⟩
  | ok u =>
    have hne : ("ns" : String) ≠ "lm" := by decide
    refine ⟨.attributeError, ?_⟩
    simp only [mleStart, hd, if_true, if_neg hne, optimizeNs, hcache, nsBest]
    rfl

end Claims

section Examples

/-- A fit with two free parameters. -/
def exFreeTable : FreeTable Int := ⟨["K", "alpha"], [("K", 1), ("alpha", -1)]⟩

/-- Engines: no constraint, a solver that needs ten steps, a search with three samples. -/
def exEngines : Engines Int Int (List Int) where
  unconstr := fun xs => .ok xs
  lm := fun cfg xs => if cfg.maxSteps < 10 then (if cfg.throw then .error .runtimeError else .ok xs) else .ok (xs.map (· + 1))
  ns := fun _ => [⟨[("K", 5), ("alpha", 2)], [[-3, -1], [-1]]⟩, ⟨[("K", 6), ("alpha", 3)], [[-1, -1], [-1]]⟩,
    ⟨[("alpha", 4), ("K", 7)], [[-2], [-2]]⟩]
  minuit := fun _ xs => .ok xs

theorem exFreeTable_wf : exFreeTable.WF := ⟨by decide, rfl⟩

example := C79_start exEngines exFreeTable exFreeTable_wf [{ method := "lm" }, { method := "ns" }] { init := some [("alpha", 7)] } rfl
example := C79_unknown_ignored exEngines exFreeTable exFreeTable_wf Session.fresh { init := some [("alpha", 7), ("aplha", 3)] } _ rfl
example := C79_unknown_method exEngines exFreeTable exFreeTable_wf [{ method := "lm" }] { method := "newton" } (by decide) (by decide) (by decide)
example := C79_lm exEngines exFreeTable exFreeTable_wf [{ method := "lm", maxSteps := some 5 }] { method := "lm" } rfl
example := C79_lm_partial exEngines exFreeTable exFreeTable_wf [{ method := "lm", init := some [("K", 3)] }, { method := "ns" }] { method := "lm" } rfl
  (by intro d hd; simp at hd; rcases hd with rfl | rfl <;> simp)
example := C79_ns_partial exEngines exFreeTable exFreeTable_wf [{ method := "ns", init := some [("K", 3)] }, { method := "lm" }] { method := "ns" } rfl rfl
  (by intro d hd; simp at hd; rcases hd with rfl | rfl <;> simp)

example : (mle exEngines exFreeTable Session.fresh { init := some [("alpha", 7), ("aplha", 3)] }).2 = .ok [1, 7] := rfl
example : (mle exEngines exFreeTable Session.fresh { method := "lm" }).2 = .ok [2, 0] := rfl
example : (mle exEngines exFreeTable Session.fresh { method := "ns" }).2 = .ok [6, 3] := by decide
example : StartVec exFreeTable (some [("alpha", 7), ("aplha", 3)]) [1, 7] :=
  ⟨rfl, fun i n hi => by
    rcases i with _ | _ | i
    · simp [exFreeTable] at hi; subst hi; decide
    · simp [exFreeTable] at hi; subst hi; decide
    · simp [exFreeTable] at hi⟩

/-- **C79 (Levenberg-Marquardt, refuted).**  After a first `lm` call that failed because its step limit was
too small, calling again with the default limit fails in the same way, although a new fit would
succeed. -/
theorem C79_lm_refuted : ∃ (e : Engines Int Int (List Int)) (t : FreeTable Int), t.WF ∧
    ∃ first second : MleCall Int, first.method = "lm" ∧ second.method = "lm" ∧
      (mle e t Session.fresh first).2 = .error .runtimeError ∧
      (mle e t Session.fresh second).2 = .ok [2, 0] ∧
      (mle e t (mleHistory e t [first]) second).2 = .error .runtimeError :=
  ⟨exEngines, exFreeTable, exFreeTable_wf, { method := "lm", maxSteps := some 5 }, { method := "lm" },
    rfl, rfl, rfl, rfl, rfl⟩

/-- **C79 (nested sampling, refuted).**  After a search that was interrupted, retrying fails with an
`AttributeError`, although a new fit would succeed. -/
theorem C79_ns_refuted : ∃ (e : Engines Int Int (List Int)) (t : FreeTable Int), t.WF ∧
    ∃ first second : MleCall Int, first.method = "ns" ∧ second.method = "ns" ∧ second.crash = none ∧
      (mle e t Session.fresh second).2 = .ok [6, 3] ∧
      (mle e t (mleHistory e t [first]) second).2 = .error .attributeError :=
  ⟨exEngines, exFreeTable, exFreeTable_wf, { method := "ns", crash := some .runtimeError }, { method := "ns" },
    rfl, rfl, rfl, by decide, rfl⟩

example : Assembles exEngines exFreeTable { method := "ns", crash := some .runtimeError } :=
  ⟨[1, -1], [1, -1], ⟨rfl, fun i n hi => by
    rcases i with _ | _ | i
    · simp [exFreeTable] at hi; subst hi; decide
    · simp [exFreeTable] at hi; subst hi; decide
    · simp [exFreeTable] at hi⟩, rfl⟩

end Examples

end Elisa.Infer
