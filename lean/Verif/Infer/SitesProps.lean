import Verif.Infer.Sites
import Verif.Infer.IDataProps
import Verif.Infer.IntensityProps

/-!
# C115: names of data sets and parameters keep their values apart
-/

namespace Elisa.Infer.Sites

open Elisa Elisa.Infer

variable {V : Type}

/-! ### Specification -/

/-- What is appended to the name of a data set. -/
def reserved : List String :=
  ["_Non_data", "_Noff_data", "_Non_model", "_Noff_model", "_plate", "_Non", "_Noff", "_Non_loglike", "_Noff_loglike", "_loglike"]

/-- Names that do not run into each other: no name is another one followed by a reserved ending. -/
def Separate (names : List String) : Prop := names.Nodup ∧ ∀ a ∈ names, ∀ b ∈ names, ∀ s ∈ reserved, a ≠ b ++ s

/-! ### Endings -/

/-- All endings, the empty one included. -/
def endings : List String := "" :: reserved

theorem endings_cut : ∀ t ∈ endings, ∀ s ∈ endings, s.toList.isSuffixOf t.toList = true → s ≠ t →
    String.ofList (t.toList.take (t.toList.length - s.toList.length)) ∈ reserved := by
  unfold endings reserved
  decide +kernel

theorem cut (a b s t : String) (hs : s ∈ endings) (ht : t ∈ endings) (c : List Char) (h1 : a.toList = b.toList ++ c) (h2 : t.toList = c ++ s.toList) :
    (a = b ∧ s = t) ∨ ∃ r ∈ reserved, a = b ++ r := by
  by_cases hst : s = t
  · left
    subst hst
    have : c = [] := by
      have := congrArg List.length h2
      simp at this
      exact this
    subst this
    exact ⟨String.toList_injective (by simpa using h1), rfl⟩
  · right
    refine ⟨String.ofList c, ?_, ?_⟩
    · have h := endings_cut t ht s hs (by rw [List.isSuffixOf_iff_suffix, h2]; exact List.suffix_append _ _) hst
      have : t.toList.take (t.toList.length - s.toList.length) = c := by rw [h2]; simp
      rwa [this] at h
    · apply String.toList_injective
      rw [String.toList_append, String.toList_ofList]
      exact h1

theorem ending_inj (names : List String) (h : Separate names) (a b s t : String) (ha : a ∈ names) (hb : b ∈ names) (hs : s ∈ endings) (ht : t ∈ endings)
    (he : a ++ s = b ++ t) : a = b ∧ s = t := by
  have hl : a.toList ++ s.toList = b.toList ++ t.toList := by rw [← String.toList_append, ← String.toList_append, he]
  rcases List.append_eq_append_iff.1 hl with ⟨c, h1, h2⟩ | ⟨c, h1, h2⟩
  · rcases cut b a t s ht hs c h1 h2 with ⟨e1, e2⟩ | ⟨r, hr, e⟩
    · exact ⟨e1.symm, e2.symm⟩
    · exact absurd e (h.2 b hb a ha r hr)
  · rcases cut a b s t hs ht c h1 h2 with e | ⟨r, hr, e⟩
    · exact e
    · exact absurd e (h.2 a ha b hb r hr)

/-! ### Traces -/

theorem trace_nodup (sites : List (String × Site V)) (h : (sites.map (·.1)).Nodup) : trace sites = .ok sites := by
  unfold trace
  induction sites using List.reverseRecOn with
  | nil => rfl
  | append_singleton l x ih =>
    rw [List.map_append, List.nodup_append'] at h
    rw [List.foldlM_append, ih h.1]
    have hx : x.1 ∉ l.map (·.1) := fun hm => h.2.2 hm (by simp)
    have : record l x = .ok (l ++ [x]) := by
      unfold record
      rw [if_neg (fun hh => hx hh.2)]
      unfold dictSet
      rw [if_neg hx]
    simp only [bind, Except.bind, List.foldlM_cons, List.foldlM_nil, this, pure, Except.pure]

/-- The endings used by a likelihood. -/
def ends (v : Values V) : List String :=
  match v.off with
  | none => ["", "_Non_data", "_Non_model", "_plate", "_Non", "_Non_loglike", "_loglike"]
  | some _ => ["", "_Non_data", "_Noff_data", "_Non_model", "_Noff_model", "_plate", "_Non", "_Noff", "_Non_loglike", "_Noff_loglike", "_loglike"]

theorem ends_sub (v : Values V) : (ends v).Nodup ∧ ∀ s ∈ ends v, s ∈ endings := by
  unfold ends
  cases v.off with
  | none => exact ⟨by dsimp only; decide, by unfold endings reserved; dsimp only; decide⟩
  | some x => exact ⟨by dsimp only; decide, by unfold endings reserved; dsimp only; decide⟩

theorem names_eq (n : String) (v : Values V) : (likelihoodSites n v).map (·.1) = (ends v).map fun s => n ++ s := by
  unfold likelihoodSites ends
  cases v.off with
  | none => simp
  | some x => simp

theorem append_right_inj' (n : String) : Function.Injective fun s : String => n ++ s := by
  intro s t h
  have : n.toList ++ s.toList = n.toList ++ t.toList := by rw [← String.toList_append, ← String.toList_append]; exact congrArg _ h
  exact String.toList_injective (List.append_cancel_left this)

theorem run_nodup (run : List (String × Values V)) (h : Separate (run.map (·.1))) :
    ((run.flatMap fun x => likelihoodSites x.1 x.2).map (·.1)).Nodup := by
  rw [List.map_flatMap, List.nodup_flatMap]
  constructor
  · intro x _
    rw [names_eq]
    exact (List.nodup_map_iff (append_right_inj' x.1)).2 (ends_sub x.2).1
  · have hn : List.Pairwise (fun a b : String × Values V => a.1 ≠ b.1) run := by
      have := h.1
      rwa [List.Nodup, List.pairwise_map] at this
    refine List.Pairwise.imp_of_mem ?_ hn
    intro x y hx hy hne
    show List.Disjoint ((likelihoodSites x.1 x.2).map (·.1)) ((likelihoodSites y.1 y.2).map (·.1))
    rw [names_eq, names_eq]
    intro z h1 h2
    obtain ⟨s, hs, rfl⟩ := List.mem_map.1 h1
    obtain ⟨t, ht, he⟩ := List.mem_map.1 h2
    exact hne ((ending_inj _ h x.1 y.1 s t (List.mem_map_of_mem hx) (List.mem_map_of_mem hy) ((ends_sub x.2).2 s hs) ((ends_sub y.2).2 t ht) he.symm).1)

/-- The parameters are named apart from each other and from all sites of the data sets. -/
def Apart (params names : List String) : Prop := params.Nodup ∧ ∀ p ∈ params, ∀ n ∈ names, p ≠ n ∧ ∀ s ∈ reserved, p ≠ n ++ s

theorem apart_ending {params names : List String} (h : Apart params names) {p n s : String} (hp : p ∈ params) (hn : n ∈ names) (hs : s ∈ endings) : p ≠ n ++ s := by
  have := h.2 p hp n hn
  rcases List.mem_cons.1 hs with rfl | hs
  · simpa using this.1
  · exact this.2 s hs

theorem model_nodup (free comp : List (String × V)) (run : List (String × Values V)) (h : Separate (run.map (·.1)))
    (ha : Apart ((free ++ comp).map (·.1)) (run.map (·.1))) : ((modelSites free comp run).map (·.1)).Nodup := by
  unfold modelSites
  rw [List.map_append, List.nodup_append']
  have e : ((free.map fun x => (x.1, (⟨.sample, x.2⟩ : Site V))) ++ (comp.map fun x => (x.1, (⟨.deterministic, x.2⟩ : Site V)))).map (·.1) =
      (free ++ comp).map (·.1) := by simp [Function.comp_def]
  rw [e]
  refine ⟨ha.1, run_nodup run h, ?_⟩
  intro p hp hq
  rw [List.map_flatMap, List.mem_flatMap] at hq
  obtain ⟨x, hx, hz⟩ := hq
  rw [names_eq] at hz
  obtain ⟨s, hs, rfl⟩ := List.mem_map.1 hz
  exact apart_ending ha hp (List.mem_map_of_mem hx) ((ends_sub x.2).2 s hs) rfl

theorem constrain_ok (free comp : List (String × V)) (run : List (String × Values V)) (h : Separate (run.map (·.1)))
    (ha : Apart ((free ++ comp).map (·.1)) (run.map (·.1))) :
    ∃ sites, constrain free comp run = .ok sites ∧
      (∀ x ∈ free ++ comp, sites.lookup x.1 = some x.2) ∧
      ∀ n v k x, (n, v) ∈ run → (k, (⟨.deterministic, x⟩ : Site V)) ∈ likelihoodSites n v → sites.lookup k = some x := by
  have hnd := model_nodup free comp run h ha
  have hany : ((modelSites free comp run).any fun x => decide (x.1 ∈ free.map (·.1)) && decide (x.2.kind ≠ .sample)) = false := by
    rw [List.any_eq_false]
    intro x hx hh
    rw [Bool.and_eq_true, decide_eq_true_eq, decide_eq_true_eq] at hh
    obtain ⟨y, hy, hyx⟩ := List.mem_map.1 hh.1
    have hy' : (y.1, (⟨.sample, y.2⟩ : Site V)) ∈ modelSites free comp run := by
      unfold modelSites
      exact List.mem_append_left _ (List.mem_append_left _ (List.mem_map_of_mem (f := fun x : String × V => (x.1, (⟨.sample, x.2⟩ : Site V))) hy))
    have h1 := lookup_of_mem _ hnd _ hy'
    have h2 := lookup_of_mem _ hnd _ hx
    rw [show (y.1, (⟨.sample, y.2⟩ : Site V)).1 = x.1 from hyx, h2] at h1
    have := Option.some.inj h1
    exact hh.2 (by rw [this])
  refine ⟨((modelSites free comp run).filter fun x => decide (x.1 ∈ free.map (·.1)) || decide (x.2.kind = .deterministic)).map fun x => (x.1, x.2.value), ?_, ?_⟩
  · unfold constrain
    rw [hany, trace_nodup _ hnd]
    rfl
  have hsub : ((((modelSites free comp run).filter fun x => decide (x.1 ∈ free.map (·.1)) || decide (x.2.kind = .deterministic)).map
      fun x => (x.1, x.2.value)).map (·.1)).Nodup := by
    rw [List.map_map]
    exact List.Nodup.sublist (List.Sublist.map _ List.filter_sublist) hnd
  have key : ∀ k (s : Site V), (k, s) ∈ modelSites free comp run → (k ∈ free.map (·.1) ∨ s.kind = .deterministic) →
      (((modelSites free comp run).filter fun x => decide (x.1 ∈ free.map (·.1)) || decide (x.2.kind = .deterministic)).map
        fun x => (x.1, x.2.value)).lookup k = some s.value := by
    intro k s hm hk
    refine lookup_of_mem _ hsub (k, s.value) (List.mem_map.2 ⟨(k, s), List.mem_filter.2 ⟨hm, ?_⟩, rfl⟩)
    rw [Bool.or_eq_true, decide_eq_true_eq, decide_eq_true_eq]
    exact hk
  constructor
  · intro x hx
    rcases List.mem_append.1 hx with hx | hx
    · exact key x.1 ⟨.sample, x.2⟩ (List.mem_append_left _ (List.mem_append_left _ (List.mem_map_of_mem (f := fun x : String × V => (x.1, (⟨.sample, x.2⟩ : Site V))) hx)))
        (Or.inl (List.mem_map_of_mem hx))
    · exact key x.1 ⟨.deterministic, x.2⟩ (List.mem_append_left _ (List.mem_append_right _ (List.mem_map_of_mem (f := fun x : String × V => (x.1, (⟨.deterministic, x.2⟩ : Site V))) hx)))
        (Or.inr rfl)
  · intro n v k x hn hk
    exact key k ⟨.deterministic, x⟩ (List.mem_append_right _ (List.mem_flatMap.2 ⟨(n, v), hn, hk⟩)) (Or.inr rfl)

/-! ### C115 -/

theorem pick_ok (sites : List (String × V)) (key : String → String) (names : List String) (f : String → V)
    (h : ∀ n ∈ names, sites.lookup (key n) = some (f n)) : pick sites key names = .ok (names.map fun n => (n, f n)) := by
  unfold pick
  apply mapM_ok_map
  intro n hn
  simp only [dictGet, h n hn, Except.map]

/-- What the result of a fit holds for a data set is what its likelihood computed. -/
structure Holds (n : String) (v : Values V) (models likeData likePoint : List (String × V)) : Prop where
  rate : models.lookup n = some v.rate
  onModel : models.lookup (n ++ "_Non_model") = some v.onModel
  onLike : likeData.lookup (n ++ "_Non") = some v.onLike
  like : likePoint.lookup n = some v.like
  off : ∀ d m s l, v.off = some (d, m, s, l) → models.lookup (n ++ "_Noff_model") = some m ∧ likeData.lookup (n ++ "_Noff") = some l

theorem dictGet_some (d : List (String × V)) (k : String) (v : V) (h : d.lookup k = some v) : dictGet d k = .ok v := by
  simp only [dictGet, h]

theorem lookup_dictOf_map (names : List String) (f : String → V) (n : String) (hn : n ∈ names) :
    (dictOf (names.map fun n => (n, f n))).lookup n = some (f n) := by
  apply dictOf_get
  · simpa using hn
  · rintro p hp rfl
    obtain ⟨m, _, rfl⟩ := List.mem_map.1 hp
    rfl

theorem lookup_map_fn (names : List String) (f : String → V) (n : String) :
    (names.map fun n => (n, f n)).lookup n = if n ∈ names then some (f n) else none := by
  induction names with
  | nil => simp
  | cons a l ih =>
    by_cases h : n = a
    · subst h; simp [List.lookup]
    · have h' : (n == a) = false := by simpa using h
      simp only [List.map_cons, List.lookup, h', ih, List.mem_cons, h, false_or]

theorem groups_mem (data : List (String × Values V)) (i : String) (hi : i ∈ (data.map fun x => (x.1, x.2.off.isSome)).flatMap fun x => groupNames x.1 x.2) :
    ∃ x ∈ data, i = x.1 ++ "_Non" ∨ (i = x.1 ++ "_Noff" ∧ x.2.off.isSome = true) := by
  rw [List.mem_flatMap] at hi
  obtain ⟨y, hy, hi⟩ := hi
  obtain ⟨x, hx, rfl⟩ := List.mem_map.1 hy
  refine ⟨x, hx, ?_⟩
  unfold groupNames at hi
  split_ifs at hi with hb
  · simp at hi
    rcases hi with rfl | rfl
    · exact Or.inl rfl
    · exact Or.inr ⟨rfl, hb⟩
  · simp at hi
    exact Or.inl hi

/-- **C115 (results of a fit).**  If no name of a data set is another name followed by a reserved ending, and no parameter has the name of a site, then the parameters,
model values and likelihoods reported under each name are those of that parameter and that data set, for any number of data sets and any order of evaluation.
Missing: names that run into each other, see the refuted theorems. -/
theorem C115_results_partial (free comp : List (String × V)) (data run : List (String × Values V)) (hperm : run.Perm data) (h : Separate (data.map (·.1)))
    (ha : Apart ((free ++ comp).map (·.1)) (data.map (·.1))) :
    ∃ sites params models likeData likePoint, constrain free comp run = .ok sites ∧
      getParams ((free ++ comp).map (·.1)) sites = .ok params ∧ params = free ++ comp ∧
      getModels (data.map fun x => (x.1, x.2.off.isSome)) sites = .ok models ∧
      getLike (data.map fun x => (x.1, x.2.off.isSome)) sites = .ok (likeData, likePoint) ∧
      ∀ x ∈ data, Holds x.1 x.2 models likeData likePoint := by
  have hp : (run.map (·.1)).Perm (data.map (·.1)) := hperm.map _
  have h' : Separate (run.map (·.1)) := ⟨hp.nodup_iff.2 h.1, fun a ha b hb => h.2 a (hp.mem_iff.1 ha) b (hp.mem_iff.1 hb)⟩
  have ha' : Apart ((free ++ comp).map (·.1)) (run.map (·.1)) := ⟨ha.1, fun p hp' n hn => ha.2 p hp' n (hp.mem_iff.1 hn)⟩
  obtain ⟨sites, h1, h2, h3⟩ := constrain_ok free comp run h' ha'
  have look : ∀ x ∈ data, ∀ k y, (k, (⟨.deterministic, y⟩ : Site V)) ∈ likelihoodSites x.1 x.2 → sites.lookup k = some y :=
    fun x hx k y hk => h3 x.1 x.2 k y (hperm.mem_iff.2 hx) hk
  have s1 : ∀ x ∈ data, sites.lookup x.1 = some x.2.rate ∧ sites.lookup (x.1 ++ "_Non_model") = some x.2.onModel ∧
      sites.lookup (x.1 ++ "_Non_loglike") = some x.2.onLike ∧ sites.lookup (x.1 ++ "_loglike") = some x.2.like := by
    intro x hx
    refine ⟨look x hx _ _ ?_, look x hx _ _ ?_, look x hx _ _ ?_, look x hx _ _ ?_⟩ <;> (unfold likelihoodSites; cases x.2.off <;> simp)
  have s2 : ∀ x ∈ data, ∀ d m s l, x.2.off = some (d, m, s, l) → sites.lookup (x.1 ++ "_Noff_model") = some m ∧ sites.lookup (x.1 ++ "_Noff_loglike") = some l := by
    intro x hx d m s l ho
    refine ⟨look x hx _ _ ?_, look x hx _ _ ?_⟩ <;> (unfold likelihoodSites; rw [ho]; simp)
  -- every lookup made succeeds
  have pickAll : ∀ key (names : List String), (∀ n ∈ names, ∃ y, sites.lookup (key n) = some y) →
      ∃ r, pick sites key names = .ok r ∧ ∀ n ∈ names, (∀ y, sites.lookup (key n) = some y → (dictOf r).lookup n = some y) ∧ r.map (·.1) = names ∧
        ∀ y, sites.lookup (key n) = some y → ∀ p ∈ r, p.1 = n → p.2 = y := by
    intro key names hk
    cases hnames : names with
    | nil => exact ⟨[], rfl, by simp⟩
    | cons a l =>
      rw [← hnames]
      obtain ⟨y0, _⟩ := hk a (by rw [hnames]; simp)
      let f : String → V := fun n => (sites.lookup (key n)).getD y0
      have hf : ∀ n ∈ names, sites.lookup (key n) = some (f n) := fun n hn => by
        obtain ⟨y, hy⟩ := hk n hn
        simp [f, hy]
      refine ⟨_, pick_ok sites key names f hf, fun n hn => ⟨fun y hy => ?_, by simp [Function.comp_def], fun y hy p hp hpn => ?_⟩⟩
      · rw [lookup_dictOf_map names f n hn, ← hf n hn, hy]
      · obtain ⟨m, hm, rfl⟩ := List.mem_map.1 hp
        dsimp only at hpn
        subst hpn
        have := hf m hm
        rw [hy] at this
        exact (Option.some.inj this).symm
  obtain ⟨rm, hrm, prm⟩ := pickAll id (data.map (·.1)) (by
    intro n hn
    obtain ⟨x, hx, rfl⟩ := List.mem_map.1 hn
    exact ⟨_, (s1 x hx).1⟩)
  obtain ⟨rb, hrb, prb⟩ := pickAll id (((data.map fun x => (x.1, x.2.off.isSome)).flatMap fun x => groupNames x.1 x.2).map fun i => i ++ "_model") (by
    intro n hn
    obtain ⟨i, hi, rfl⟩ := List.mem_map.1 hn
    obtain ⟨x, hx, rfl | ⟨rfl, hb⟩⟩ := groups_mem data i hi
    · have : x.1 ++ "_Non" ++ "_model" = x.1 ++ "_Non_model" := by rw [String.append_assoc]; rfl
      exact ⟨_, by rw [id, this]; exact (s1 x hx).2.1⟩
    · obtain ⟨⟨d, m, s, l⟩, ho⟩ := Option.isSome_iff_exists.1 hb
      have : x.1 ++ "_Noff" ++ "_model" = x.1 ++ "_Noff_model" := by rw [String.append_assoc]; rfl
      exact ⟨_, by rw [id, this]; exact (s2 x hx d m s l ho).1⟩)
  obtain ⟨rd, hrd, prd⟩ := pickAll (fun n => n ++ "_loglike") ((data.map fun x => (x.1, x.2.off.isSome)).flatMap fun x => groupNames x.1 x.2) (by
    intro i hi
    obtain ⟨x, hx, rfl | ⟨rfl, hb⟩⟩ := groups_mem data i hi
    · have : x.1 ++ "_Non" ++ "_loglike" = x.1 ++ "_Non_loglike" := by rw [String.append_assoc]; rfl
      exact ⟨_, by rw [this]; exact (s1 x hx).2.2.1⟩
    · obtain ⟨⟨d, m, s, l⟩, ho⟩ := Option.isSome_iff_exists.1 hb
      have : x.1 ++ "_Noff" ++ "_loglike" = x.1 ++ "_Noff_loglike" := by rw [String.append_assoc]; rfl
      exact ⟨_, by rw [this]; exact (s2 x hx d m s l ho).2⟩)
  obtain ⟨rp, hrp, prp⟩ := pickAll (fun n => n ++ "_loglike") (data.map (·.1)) (by
    intro n hn
    obtain ⟨x, hx, rfl⟩ := List.mem_map.1 hn
    exact ⟨_, (s1 x hx).2.2.2⟩)
  have hmapid : (data.map fun x => (x.1, x.2.off.isSome)).map (·.1) = data.map (·.1) := by simp [Function.comp_def]
  refine ⟨sites, free ++ comp, dictMerge (dictOf rm) rb, dictOf rd, dictOf rp, h1, ?_, rfl, ?_, ?_, ?_⟩
  · unfold getParams
    rw [List.mapM_map]
    have : ∀ l : List (String × V), (∀ x ∈ l, sites.lookup x.1 = some x.2) →
        (l.mapM fun x : String × V => (dictGet sites x.1).map fun v => (x.1, v)) = .ok l := by
      intro l hl
      have := mapM_ok_map (fun x : String × V => (dictGet sites x.1).map fun v => (x.1, v)) id l (fun x hx => by
        simp only [dictGet, hl x hx, Except.map]; rfl)
      simpa using this
    exact this _ h2
  · unfold getModels
    rw [hmapid, hrm, hrb]
    rfl
  · unfold getLike
    rw [hmapid, hrd, hrp]
    rfl
  · intro x hx
    have hxn : x.1 ∈ data.map (·.1) := List.mem_map_of_mem hx
    have on : x.1 ++ "_Non" ∈ (data.map fun x => (x.1, x.2.off.isSome)).flatMap fun x => groupNames x.1 x.2 := by
      rw [List.mem_flatMap]
      refine ⟨(x.1, x.2.off.isSome), List.mem_map_of_mem (f := fun x : String × Values V => (x.1, x.2.off.isSome)) hx, ?_⟩
      unfold groupNames
      split_ifs <;> simp
    have off : x.2.off.isSome = true → x.1 ++ "_Noff" ∈ (data.map fun x => (x.1, x.2.off.isSome)).flatMap fun x => groupNames x.1 x.2 := by
      intro hb
      rw [List.mem_flatMap]
      refine ⟨(x.1, x.2.off.isSome), List.mem_map_of_mem (f := fun x : String × Values V => (x.1, x.2.off.isSome)) hx, ?_⟩
      unfold groupNames
      rw [if_pos hb]
      simp
    have e1 : x.1 ++ "_Non" ++ "_model" = x.1 ++ "_Non_model" := by rw [String.append_assoc]; rfl
    have e2 : x.1 ++ "_Noff" ++ "_model" = x.1 ++ "_Noff_model" := by rw [String.append_assoc]; rfl
    have e3 : x.1 ++ "_Non" ++ "_loglike" = x.1 ++ "_Non_loglike" := by rw [String.append_assoc]; rfl
    have e4 : x.1 ++ "_Noff" ++ "_loglike" = x.1 ++ "_Noff_loglike" := by rw [String.append_assoc]; rfl
    -- lookups in the merged dictionary
    have merged : ∀ k y, k ∈ rb.map (·.1) → (∀ p ∈ rb, p.1 = k → p.2 = y) → (dictMerge (dictOf rm) rb).lookup k = some y := by
      intro k y hk hy
      rw [dictMerge_lookup, ← dictOf_lookup, dictOf_get rb k y hk hy]
    have rbnames : rb.map (·.1) = ((data.map fun x => (x.1, x.2.off.isSome)).flatMap fun x => groupNames x.1 x.2).map fun i => i ++ "_model" :=
      (prb _ (List.mem_map_of_mem on)).2.1
    refine ⟨?_, ?_, ?_, ?_, ?_⟩
    · rw [dictMerge_lookup]
      have : rb.reverse.lookup x.1 = none := by
        rw [lookup_none_iff]
        intro hm
        rw [List.map_reverse, List.mem_reverse, rbnames] at hm
        obtain ⟨i, hi, he⟩ := List.mem_map.1 hm
        obtain ⟨y, hy, rfl | ⟨rfl, _⟩⟩ := groups_mem data i hi
        · have : y.1 ++ "_Non" ++ "_model" = y.1 ++ "_Non_model" := by rw [String.append_assoc]; rfl
          rw [this] at he
          exact h.2 x.1 hxn y.1 (List.mem_map_of_mem hy) "_Non_model" (by decide) he.symm
        · have : y.1 ++ "_Noff" ++ "_model" = y.1 ++ "_Noff_model" := by rw [String.append_assoc]; rfl
          rw [this] at he
          exact h.2 x.1 hxn y.1 (List.mem_map_of_mem hy) "_Noff_model" (by decide) he.symm
      rw [this]
      exact (prm x.1 hxn).1 _ (s1 x hx).1
    · rw [← e1]
      refine merged _ _ (by rw [rbnames]; exact List.mem_map_of_mem on) ?_
      exact (prb _ (List.mem_map_of_mem on)).2.2 _ (by rw [id, e1]; exact (s1 x hx).2.1)
    · exact (prd _ on).1 _ (by rw [e3]; exact (s1 x hx).2.2.1)
    · exact (prp x.1 hxn).1 _ (s1 x hx).2.2.2
    · intro d m s l ho
      have hb : x.2.off.isSome = true := by rw [ho]; rfl
      refine ⟨?_, (prd _ (off hb)).1 _ (by rw [e4]; exact (s2 x hx d m s l ho).2)⟩
      rw [← e2]
      refine merged _ _ (by rw [rbnames]; exact List.mem_map_of_mem (off hb)) ?_
      exact (prb _ (List.mem_map_of_mem (off hb))).2.2 _ (by rw [id, e2]; exact (s2 x hx d m s l ho).1)

/-- Example values: the data set `n` with background and one without. -/
def exVal (k : Nat) (back : Bool) : Values Nat := ⟨k, k + 1, k + 2, k + 3, k + 4, k + 5, k + 6, if back then some (k + 7, k + 8, k + 9, k + 10) else none⟩

theorem exSeparate : Separate ["GBM", "LAT"] := by
  refine ⟨by decide, ?_⟩
  unfold reserved
  decide

theorem exApart : Apart ["PL.alpha", "PL.K"] ["GBM", "LAT"] := by
  refine ⟨by decide, ?_⟩
  unfold reserved
  decide

example := C115_results_partial [("PL.alpha", 1)] [("PL.K", 2)] [("LAT", exVal 100 true), ("GBM", exVal 200 false)]
  [("GBM", exVal 200 false), ("LAT", exVal 100 true)] (List.Perm.swap _ _ _)
  (by refine ⟨by decide, ?_⟩; unfold reserved; decide) (by refine ⟨by decide, ?_⟩; unfold reserved; decide)

/-- **C115 (results of a fit, refuted).**  With data sets `A` and `A_Non_model`, the expected counts reported for `A` are the spectrum of the other one. -/
theorem C115_models_refuted : ∃ sites models, constrain [] [] [("A", exVal 100 false), ("A_Non_model", exVal 200 false)] = .ok sites ∧
    getModels [("A", false), ("A_Non_model", false)] sites = .ok models ∧
    models.lookup ("A" ++ "_Non_model") = some (exVal 200 false).rate ∧ (exVal 200 false).rate ≠ (exVal 100 false).onModel :=
  ⟨_, _, rfl, rfl, by decide +kernel, by decide⟩

/-- **C115 (parameters, refuted).**  A composite parameter with the name of a data set is reported as the spectrum of that data set. -/
theorem C115_params_refuted : ∃ sites params, constrain [("a", 1)] [("A", 2)] [("A", exVal 100 false)] = .ok sites ∧
    getParams ["a", "A"] sites = .ok params ∧ params.lookup "A" = some (exVal 100 false).rate ∧ (exVal 100 false).rate ≠ 2 :=
  ⟨_, _, rfl, rfl, by decide +kernel, by decide⟩

/-! ### Count data -/

/-- The simulated or observed counts have an entry for every measurement. -/
def Complete (rules : List (CountRule V)) (counts : List (String × V)) (on : String → V) (off : String → V) : Prop :=
  ∀ r ∈ rules, counts.lookup (r.name ++ "_Non") = some (on r.name) ∧ (r.back = true → counts.lookup (r.name ++ "_Noff") = some (off r.name))

/-- The net spectrum of a data set. -/
def netOf (on off : String → V) (r : CountRule V) : V := r.net (on r.name) (if r.back then some (off r.name) else none)

theorem no_common (a : String) : a ++ "_Non" ≠ "channels" ∧ a ++ "_Non" ≠ "total" ∧ a ++ "_Noff" ≠ "channels" ∧ a ++ "_Noff" ≠ "total" := by
  have last : ∀ s t : String, s.toList ≠ [] → s.toList.getLast? ≠ t.toList.getLast? → a ++ s ≠ t := by
    intro s t hs h he
    apply h
    rw [← he, String.toList_append, List.getLast?_append]
    cases hl : s.toList.getLast? with
    | none => exact absurd (List.getLast?_eq_none_iff.1 hl) hs
    | some c => rfl
  refine ⟨last _ _ ?_ ?_, last _ _ ?_ ?_, last _ _ ?_ ?_, last _ _ ?_ ?_⟩ <;> decide

theorem pick_map {A : Type} (counts : List (String × V)) (l : List A) (k : A → String) (g : A → V) (h : ∀ r ∈ l, counts.lookup (k r) = some (g r)) :
    pick counts id (l.map k) = .ok (l.map fun r => (k r, g r)) := by
  unfold pick
  rw [List.mapM_map]
  apply mapM_ok_map
  intro r hr
  simp only [Function.comp_apply, id, dictGet, h r hr, Except.map]

theorem merge_hit (a b : List (String × V)) (k : String) (y : V) (hk : k ∈ b.map (·.1)) (hy : ∀ p ∈ b, p.1 = k → p.2 = y) : (dictMerge a b).lookup k = some y := by
  rw [dictMerge_lookup, ← dictOf_lookup, dictOf_get b k y hk hy]

theorem merge_miss (a b : List (String × V)) (k : String) (hk : k ∉ b.map (·.1)) : (dictMerge a b).lookup k = a.lookup k := by
  have : b.reverse.lookup k = none := by
    rw [lookup_none_iff, List.map_reverse, List.mem_reverse]
    exact hk
  rw [dictMerge_lookup, this]

/-- **C115 (count data).**  For data sets whose names do not run into each other and are not `channels` or `total`, the simulated (or observed) data contain, under the names
of each data set, its own on counts, off counts and net spectrum, the stacked spectra and the total; fitting a simulation substitutes for each measurement its own
simulated counts.  Missing: other names, see `C115_counts_refuted`. -/
theorem C115_counts_partial (rules : List (CountRule V)) (join : List V → V) (sum : List (String × V) → V) (counts : List (String × V)) (on off : String → V)
    (h : Separate (rules.map (·.name))) (hr : "channels" ∉ rules.map (·.name) ∧ "total" ∉ rules.map (·.name)) (hc : Complete rules counts on off) :
    ∃ d, getCountsData rules join sum counts = .ok d ∧
      (∀ r ∈ rules, d.lookup r.name = some (netOf on off r) ∧ d.lookup (r.name ++ "_Non") = some (on r.name) ∧
        (r.back = true → d.lookup (r.name ++ "_Noff") = some (off r.name))) ∧
      d.lookup "channels" = some (join (rules.map (netOf on off))) ∧ d.lookup "total" = some (sum counts) := by
  have hinj : ∀ r ∈ rules, ∀ r' ∈ rules, r.name = r'.name → r = r' := fun r hr r' hr' he => List.inj_on_of_nodup_map h.1 hr hr' he
  have mem : ∀ r ∈ rules, r.name ∈ rules.map (·.name) := fun r hr => List.mem_map_of_mem hr
  have hend : ∀ r ∈ rules, ∀ r' ∈ rules, ∀ s ∈ endings, ∀ t ∈ endings, r.name ++ s = r'.name ++ t → r = r' ∧ s = t := fun r hr r' hr' s hs t ht he =>
    ⟨hinj r hr r' hr' (ending_inj _ h _ _ s t (mem r hr) (mem r' hr') hs ht he).1, (ending_inj _ h _ _ s t (mem r hr) (mem r' hr') hs ht he).2⟩
  have e0 : "" ∈ endings := by unfold endings reserved; decide
  have e1 : "_Non" ∈ endings := by unfold endings reserved; decide
  have e2 : "_Noff" ∈ endings := by unfold endings reserved; decide
  have hon := pick_map counts rules (fun r => r.name ++ "_Non") (fun r => on r.name) fun r hr => (hc r hr).1
  have hoff := pick_map counts (rules.filter (·.back)) (fun r => r.name ++ "_Noff") (fun r => off r.name) fun r hr =>
    (hc r (List.mem_filter.1 hr).1).2 (List.mem_filter.1 hr).2
  have hnet : rules.mapM (CountRule.spectrum counts) = .ok (rules.map fun r => (r.name, netOf on off r)) := by
    apply mapM_ok_map
    intro r hr
    unfold CountRule.spectrum netOf
    rw [dictGet_some _ _ _ (hc r hr).1]
    cases hb : r.back with
    | false => rfl
    | true => simp only [(hc r hr).2 hb, if_true]; rfl
  set d := dictMerge (dictMerge (dictOf (rules.map fun r => (r.name ++ "_Non", on r.name))) ((rules.filter (·.back)).map fun r => (r.name ++ "_Noff", off r.name)))
    (rules.map fun r => (r.name, netOf on off r)) with hd
  have d0 : ∀ r ∈ rules, d.lookup r.name = some (netOf on off r) := by
    intro r hr
    refine merge_hit _ _ _ _ (by simpa [Function.comp_def] using ⟨r, hr, rfl⟩) ?_
    intro p hp hpn
    obtain ⟨r', hr', rfl⟩ := List.mem_map.1 hp
    rw [hinj r' hr' r hr hpn]
  have noname : ∀ r ∈ rules, ∀ s ∈ endings, s ≠ "" → r.name ++ s ∉ (rules.map fun r => (r.name, netOf on off r)).map (·.1) := by
    intro r hr s hs hne hm
    rw [List.map_map] at hm
    obtain ⟨r', hr', he⟩ := List.mem_map.1 hm
    have he' : r.name ++ s = r'.name ++ "" := by rw [String.append_empty]; exact he.symm
    exact hne (hend r hr r' hr' s hs "" e0 he').2
  have d1 : ∀ r ∈ rules, d.lookup (r.name ++ "_Non") = some (on r.name) := by
    intro r hr
    rw [hd, merge_miss _ _ _ (noname r hr "_Non" e1 (by decide)), merge_miss]
    · apply dictOf_get
      · rw [List.map_map]
        exact List.mem_map.2 ⟨r, hr, rfl⟩
      · intro p hp hpn
        obtain ⟨r', hr', rfl⟩ := List.mem_map.1 hp
        rw [(hend r' hr' r hr "_Non" e1 "_Non" e1 hpn).1]
    · intro hm
      rw [List.map_map] at hm
      obtain ⟨r', hr', he⟩ := List.mem_map.1 hm
      have := (hend r' (List.mem_filter.1 hr').1 r hr "_Noff" e2 "_Non" e1 he).2
      exact absurd this (by decide)
  have d2 : ∀ r ∈ rules, r.back = true → d.lookup (r.name ++ "_Noff") = some (off r.name) := by
    intro r hr hb
    rw [hd, merge_miss _ _ _ (noname r hr "_Noff" e2 (by decide))]
    refine merge_hit _ _ _ _ ?_ ?_
    · rw [List.map_map]
      exact List.mem_map.2 ⟨r, List.mem_filter.2 ⟨hr, hb⟩, rfl⟩
    · intro p hp hpn
      obtain ⟨r', hr', rfl⟩ := List.mem_map.1 hp
      rw [(hend r' (List.mem_filter.1 hr').1 r hr "_Noff" e2 "_Noff" e2 hpn).1]
  have hspec : rules.mapM (fun r => dictGet d r.name) = .ok (rules.map (netOf on off)) := by
    apply mapM_ok_map
    intro r hr
    exact dictGet_some _ _ _ (d0 r hr)
  refine ⟨dictSet (dictSet d "channels" (join (rules.map (netOf on off)))) "total" (sum counts), ?_, ?_, ?_, ?_⟩
  · unfold getCountsData
    simp only [hon, hoff, hnet, bind, Except.bind, ← hd, hspec, pure, Except.pure]
  · obtain ⟨hr1, hr2⟩ := hr
    intro r hr
    have n1 : r.name ≠ "channels" := fun he => hr1 (he ▸ mem r hr)
    have n2 : r.name ≠ "total" := fun he => hr2 (he ▸ mem r hr)
    obtain ⟨c1, c2, c3, c4⟩ := no_common r.name
    simp only [dictSet_lookup, if_neg n1, if_neg n2, if_neg c1, if_neg c2, if_neg c3, if_neg c4]
    exact ⟨d0 r hr, d1 r hr, d2 r hr⟩
  · simp only [dictSet_lookup]
    simp
  · simp only [dictSet_lookup]
    simp

/-- **C115 (fits of simulations).**  The data substituted when a simulation is fitted: for each measurement its own simulated counts. -/
theorem C115_substituted_partial (rules : List (CountRule V)) (join : List V → V) (sum : List (String × V) → V) (counts : List (String × V)) (on off : String → V)
    (h : Separate (rules.map (·.name))) (hr : "channels" ∉ rules.map (·.name) ∧ "total" ∉ rules.map (·.name)) (hc : Complete rules counts on off) :
    ∃ d s, getCountsData rules join sum counts = .ok d ∧ newData (rules.map fun r => (r.name, r.back)) d = .ok s ∧
      ∀ r ∈ rules, s.lookup (r.name ++ "_Non_data") = some (on r.name) ∧ (r.back = true → s.lookup (r.name ++ "_Noff_data") = some (off r.name)) := by
  obtain ⟨d, hd, hl, -, -⟩ := C115_counts_partial rules join sum counts on off h hr hc
  -- the measurements with their values
  let ms : List (String × V) := rules.flatMap fun r => if r.back then [(r.name ++ "_Non", on r.name), (r.name ++ "_Noff", off r.name)] else [(r.name ++ "_Non", on r.name)]
  have hms : ((rules.map fun r => (r.name, r.back)).flatMap fun x => groupNames x.1 x.2) = ms.map (·.1) := by
    simp only [ms, List.flatMap_map, List.map_flatMap]
    congr 1
    funext r
    unfold groupNames
    cases r.back <;> rfl
  have hmem : ∀ m ∈ ms, ∃ r ∈ rules, (m = (r.name ++ "_Non", on r.name)) ∨ (m = (r.name ++ "_Noff", off r.name) ∧ r.back = true) := by
    intro m hm
    obtain ⟨r, hr', hm⟩ := List.mem_flatMap.1 hm
    refine ⟨r, hr', ?_⟩
    split_ifs at hm with hb
    · simp only [List.mem_cons, List.not_mem_nil, or_false] at hm
      rcases hm with hm | hm
      · exact Or.inl hm
      · exact Or.inr ⟨hm, hb⟩
    · simp only [List.mem_cons, List.not_mem_nil, or_false] at hm
      exact Or.inl hm
  have hval : ∀ m ∈ ms, d.lookup m.1 = some m.2 := by
    intro m hm
    obtain ⟨r, hr', rfl | ⟨rfl, hb⟩⟩ := hmem m hm
    · exact (hl r hr').2.1
    · exact (hl r hr').2.2 hb
  have hpick := pick_map d ms (·.1) (·.2) hval
  refine ⟨d, dictOf (ms.map fun x => (x.1 ++ "_data", x.2)), hd, ?_, ?_⟩
  · unfold newData
    rw [hms, hpick]
    simp only [bind, Except.bind, pure, Except.pure, List.map_map]
    rfl
  have key : ∀ r ∈ rules, ∀ e ∈ endings, ∀ e' ∈ endings, ∀ v, e ++ "_data" = e' → (r.name ++ e, v) ∈ ms →
      (dictOf (ms.map fun x => (x.1 ++ "_data", x.2))).lookup (r.name ++ e') = some v := by
    intro r hr' e he e' he' v hee hm
    subst hee
    rw [← String.append_assoc]
    apply dictOf_get
    · rw [List.map_map]
      exact List.mem_map.2 ⟨_, hm, rfl⟩
    · intro p hp hpn
      obtain ⟨m, hm', rfl⟩ := List.mem_map.1 hp
      have hmn : m.1 = r.name ++ e := by
        have : m.1.toList ++ "_data".toList = (r.name ++ e).toList ++ "_data".toList := by
          rw [← String.toList_append, ← String.toList_append]; exact congrArg _ hpn
        exact String.toList_injective (List.append_cancel_right this)
      have h1 := hval m hm'
      have h2 := hval _ hm
      rw [hmn, h2] at h1
      exact (Option.some.inj h1).symm
  intro r hr'
  have e1 : "_Non" ∈ endings := by unfold endings reserved; decide
  have e2 : "_Noff" ∈ endings := by unfold endings reserved; decide
  have e3 : "_Non_data" ∈ endings := by unfold endings reserved; decide
  have e4 : "_Noff_data" ∈ endings := by unfold endings reserved; decide
  constructor
  · refine key r hr' "_Non" e1 "_Non_data" e3 _ (by decide) (List.mem_flatMap.2 ⟨r, hr', ?_⟩)
    split_ifs <;> simp
  · intro hb
    refine key r hr' "_Noff" e2 "_Noff_data" e4 _ (by decide) (List.mem_flatMap.2 ⟨r, hr', ?_⟩)
    rw [if_pos hb]
    simp

/-- Counts to spectra for the examples: on minus off. -/
def exRule (n : String) (back : Bool) : CountRule Int := ⟨n, back, fun a b => a - b.getD 0⟩

example := C115_substituted_partial [exRule "GBM" true, exRule "LAT" false] List.sum (fun _ => 0) [("GBM_Non", 10), ("LAT_Non", 4), ("GBM_Noff", 3)]
  (fun n => if n = "GBM" then 10 else 4) (fun _ => 3) (by refine ⟨by decide, ?_⟩; unfold reserved; decide) (by decide)
  (by unfold Complete; simp [exRule]; decide)

/-- **C115 (count data, refuted).**  With data sets `A` and `A_Non`, the counts used when a simulation of `A` is fitted are the net spectrum of the other data set. -/
theorem C115_counts_refuted : ∃ d s, getCountsData [exRule "A" false, exRule "A_Non" false] List.sum (fun _ => 0) [("A_Non", 10), ("A_Non_Non", 99)] = .ok d ∧
    newData [("A", false), ("A_Non", false)] d = .ok s ∧ s.lookup "A_Non_data" = some 99 :=
  ⟨_, _, rfl, rfl, by decide +kernel⟩

/-- **C115 (count data, refuted).**  The spectrum of a data set called `total` is replaced by the total counts. -/
theorem C115_total_refuted : ∃ d, getCountsData [exRule "total" false] List.sum (fun _ => 7) [("total_Non", 10)] = .ok d ∧ d.lookup "total" = some 7 :=
  ⟨_, rfl, by decide +kernel⟩

end Elisa.Infer.Sites
