import Verif.Infer.IData
import Verif.Infer.MaxLikeProps
import Mathlib.Data.List.Nodup
import Mathlib.Tactic.NormNum
import Mathlib.Tactic.Linarith

/-!
# C84: the stored posterior describes the right data set
-/

namespace Elisa.Infer

open Elisa

section Lemmas

variable {V W : Type}

theorem lookup_rev_append (a b : List (String × V)) (n : String) :
    (a ++ b).lookup n = match a.lookup n with
      | some v => some v
      | none => b.lookup n := by
  induction a with
  | nil => rfl
  | cons x a ih =>
    obtain ⟨k, v⟩ := x
    rw [List.cons_append, List.lookup_cons, List.lookup_cons, ih]
    cases hb : (n == k) <;> simp

theorem dictMerge_lookup (a b : List (String × V)) (n : String) :
    (dictMerge a b).lookup n = match b.reverse.lookup n with
      | some v => some v
      | none => a.lookup n := foldl_dictSet_lookup b a n

theorem lookup_none_iff (l : List (String × V)) (n : String) : l.lookup n = none ↔ n ∉ l.map (·.1) := by
  induction l with
  | nil => simp
  | cons x l ih =>
    obtain ⟨k, v⟩ := x
    rw [List.lookup_cons]
    by_cases h : n = k
    · subst h; simp
    · have hb : (n == k) = false := by simpa using h
      simp [hb, ih, h]

theorem lookup_of_mem (l : List (String × V)) (h : (l.map (·.1)).Nodup) (x : String × V) (hx : x ∈ l) :
    l.lookup x.1 = some x.2 := by
  induction l with
  | nil => simp at hx
  | cons y l ih =>
    obtain ⟨k, v⟩ := y
    simp only [List.map_cons, List.nodup_cons] at h
    rw [List.lookup_cons]
    rcases List.mem_cons.1 hx with rfl | hx'
    · simp
    · have hne : x.1 ≠ k := by rintro rfl; exact h.1 (List.mem_map.2 ⟨x, hx', rfl⟩)
      have hb : (x.1 == k) = false := by simpa using hne
      simp only [hb]
      exact ih h.2 hx'

theorem dictOf_nodup_eq (l : List (String × V)) (h : (l.map (·.1)).Nodup) : dictOf l = l := by
  induction l using List.reverseRecOn with
  | nil => rfl
  | append_singleton ps x ih =>
    rw [List.map_append, List.nodup_append'] at h
    rw [dictOf_snoc, ih h.1]
    unfold dictSet
    rw [if_neg]
    intro hm
    exact h.2.2 hm (by simp)

theorem append_right_inj' (a b c : String) : a ++ c = b ++ c ↔ a = b := by
  constructor
  · intro h
    have h' := congrArg String.toList h
    rw [String.toList_append, String.toList_append] at h'
    exact String.toList_injective (List.append_cancel_right h')
  · rintro rfl; rfl

theorem group_ne (a : String) : a ++ "_total" ≠ "total" ∧ a ++ "_total" ≠ "channels" := by
  constructor <;> intro h
  · have h' := congrArg (fun s => s.toList.length) h
    simp only [String.toList_append, List.length_append] at h'
    have e1 : ("_total" : String).toList.length = 6 := by decide
    have e2 : ("total" : String).toList.length = 5 := by decide
    omega
  · have h' := congrArg (fun s => s.toList.getLast?) h
    simp only [String.toList_append] at h'
    rw [List.getLast?_append] at h'
    exact absurd h' (by
      have e1 : ("_total" : String).toList.getLast? = some 'l' := by decide
      have e2 : ("channels" : String).toList.getLast? = some 's' := by decide
      rw [e1, e2]; simp)

end Lemmas

/-- Distinct data names, as `Fit` demands. -/
def DistinctNames (sites : List LogLikeSites) : Prop := (sites.map (·.name)).Nodup

theorem point_eq (sites : List LogLikeSites) (h : DistinctNames sites) :
    dictOf (sites.map fun s => (s.name, s.point)) = sites.map fun s => (s.name, s.point) := by
  apply dictOf_nodup_eq
  rw [List.map_map]
  exact h

theorem point_lookup (sites : List LogLikeSites) (h : DistinctNames sites) (s : LogLikeSites) (hs : s ∈ sites) :
    (sites.map fun s => (s.name, s.point)).lookup s.name = some s.point := by
  refine lookup_of_mem _ ?_ (s.name, s.point) (List.mem_map.2 ⟨s, hs, rfl⟩)
  rw [List.map_map]; exact h

theorem channels_eq (sites : List LogLikeSites) (h : DistinctNames sites) :
    (sites.flatMap fun s => (((dictOf (sites.map fun s => (s.name, s.point))).lookup s.name).getD [])) =
      sites.flatMap (·.point) := by
  rw [point_eq sites h]
  apply List.flatMap_congr
  intro s hs
  rw [point_lookup sites h s hs]; rfl

/-- **C84 (what the information criteria read).**  Whatever the (distinct) names of the data sets, `channels` holds the log-likelihoods of all channels,
data set after data set, and `total` their sum. -/
theorem C84_channels (sites : List LogLikeSites) (h : DistinctNames sites) :
    (logLikeGroup (getLogLike sites)).lookup "channels" = some (.points (sites.flatMap (·.point))) ∧
    (logLikeGroup (getLogLike sites)).lookup "total" = some (.number (sites.flatMap (·.point)).sum) := by
  have h1 : ("channels" == "total") = false := by decide
  have h2 : ("total" == "channels") = false := by decide
  constructor
  · simp only [logLikeGroup, dictMerge_lookup, List.reverse_cons, List.reverse_nil, List.nil_append, List.lookup_cons, h1, getLogLike,
      channels_eq sites h, List.lookup_nil, beq_self_eq_true]
  · simp only [logLikeGroup, dictMerge_lookup, List.reverse_cons, List.reverse_nil, List.nil_append, List.lookup_cons, getLogLike,
      channels_eq sites h, beq_self_eq_true]

example := C84_channels [⟨"A", [1], none, [1]⟩, ⟨"B", [2], some [1], [2]⟩] (by unfold DistinctNames; decide)

/-- The `…_total` entries as listed. -/
theorem group_eq (sites : List LogLikeSites) (h : DistinctNames sites) :
    dictOf ((getLogLike sites).group.map fun x => (x.1 ++ "_total", Entry.number x.2)) =
      sites.map fun s => (s.name ++ "_total", Entry.number s.point.sum) := by
  have he : ((getLogLike sites).group.map fun x => (x.1 ++ "_total", Entry.number x.2)) =
      sites.map fun s => (s.name ++ "_total", Entry.number s.point.sum) := by
    simp only [getLogLike, point_eq sites h, List.map_map, Function.comp_def]
  rw [he]
  apply dictOf_nodup_eq
  rw [List.map_map]
  have hc : ((fun x : String × Entry => x.1) ∘ fun s : LogLikeSites => (s.name ++ "_total", Entry.number s.point.sum)) =
      (fun n => n ++ "_total") ∘ fun s : LogLikeSites => s.name := rfl
  rw [hc, ← List.map_map]
  exact List.Nodup.map (fun a b hab => (append_right_inj' a b _).1 hab) h

/-- **C84 (sum of a data set).**  Whatever the (distinct) names, `<name>_total` is the log-likelihood of that data set. -/
theorem C84_total_of (sites : List LogLikeSites) (h : DistinctNames sites) (s : LogLikeSites) (hs : s ∈ sites) :
    (logLikeGroup (getLogLike sites)).lookup (s.name ++ "_total") = some (.number s.point.sum) := by
  have h1 : (s.name ++ "_total" == "total") = false := by simpa using (group_ne s.name).1
  have h2 : (s.name ++ "_total" == "channels") = false := by simpa using (group_ne s.name).2
  simp only [logLikeGroup, dictMerge_lookup, List.reverse_cons, List.reverse_nil, List.nil_append, List.lookup_cons, h1, h2, List.lookup_nil,
    group_eq sites h]
  have hm : (s.name ++ "_total", Entry.number s.point.sum) ∈
      (sites.map fun s => (s.name ++ "_total", Entry.number s.point.sum)).reverse := by
    rw [List.mem_reverse]; exact List.mem_map.2 ⟨s, hs, rfl⟩
  have hn : ((sites.map fun s => (s.name ++ "_total", Entry.number s.point.sum)).reverse.map (·.1)).Nodup := by
    rw [List.map_reverse, List.nodup_reverse, List.map_map]
    have hc : ((fun x : String × Entry => x.1) ∘ fun s : LogLikeSites => (s.name ++ "_total", Entry.number s.point.sum)) =
        (fun n => n ++ "_total") ∘ fun s : LogLikeSites => s.name := rfl
    rw [hc, ← List.map_map]
    exact List.Nodup.map (fun a b hab => (append_right_inj' a b _).1 hab) h
  have := lookup_of_mem _ hn _ hm
  simp only at this
  rw [this]

example := C84_total_of [⟨"A", [1], none, [1]⟩, ⟨"B", [2], some [1], [2]⟩] (by unfold DistinctNames; decide) ⟨"B", [2], some [1], [2]⟩ (by simp)

/-- **C84 (channels of a data set, part that holds).**  The entry called like a data set holds the log-likelihoods of its channels, provided it is not
called `channels`, `total` or `<other>_total`. -/
theorem C84_point_partial (sites : List LogLikeSites) (h : DistinctNames sites) (s : LogLikeSites) (hs : s ∈ sites)
    (h1 : s.name ≠ "channels") (h2 : s.name ≠ "total") (h3 : ∀ t ∈ sites, s.name ≠ t.name ++ "_total") :
    (logLikeGroup (getLogLike sites)).lookup s.name = some (.points s.point) := by
  have b1 : (s.name == "channels") = false := by simpa using h1
  have b2 : (s.name == "total") = false := by simpa using h2
  have hg : (sites.map fun s => (s.name ++ "_total", Entry.number s.point.sum)).reverse.lookup s.name = none := by
    rw [lookup_none_iff, List.map_reverse, List.mem_reverse, List.map_map]
    intro hm
    obtain ⟨t, ht, he⟩ := List.mem_map.1 hm
    exact h3 t ht he.symm
  simp only [logLikeGroup, dictMerge_lookup, List.reverse_cons, List.reverse_nil, List.nil_append, List.lookup_cons, b1, b2, List.lookup_nil,
    group_eq sites h, hg]
  have hp : ((getLogLike sites).point.map fun x => (x.1, Entry.points x.2)).reverse.lookup s.name = some (.points s.point) := by
    have he : ((getLogLike sites).point.map fun x => (x.1, Entry.points x.2)) = sites.map fun s => (s.name, Entry.points s.point) := by
      simp only [getLogLike, point_eq sites h, List.map_map, Function.comp_def]
    rw [he]
    refine lookup_of_mem _ ?_ (s.name, Entry.points s.point) ?_
    · rw [List.map_reverse, List.nodup_reverse, List.map_map]; exact h
    · rw [List.mem_reverse]; exact List.mem_map.2 ⟨s, hs, rfl⟩
  rw [hp]

example := C84_point_partial [⟨"A", [1], none, [1]⟩, ⟨"B", [2], some [1], [2]⟩] (by unfold DistinctNames; decide) ⟨"B", [2], some [1], [2]⟩ (by simp)
  (by decide) (by decide) (by intro t ht; simp at ht; rcases ht with rfl | rfl <;> decide)

/-- The site names of the model, which numpyro requires to be distinct. -/
def siteNames (sites : List LogLikeSites) : List String := sites.flatMap fun s => s.name :: s.parts.map (·.1)

theorem parts_last (s : LogLikeSites) (x : String × List ℝ) (hx : x ∈ s.parts) :
    x.1.toList.getLast? = some 'n' ∨ x.1.toList.getLast? = some 'f' := by
  have e1 : ("_Non" : String).toList.getLast? = some 'n' := by decide
  have e2 : ("_Noff" : String).toList.getLast? = some 'f' := by decide
  unfold LogLikeSites.parts at hx
  cases ho : s.off <;> rw [ho] at hx
  · simp only [List.mem_singleton] at hx
    subst hx
    left
    rw [String.toList_append, List.getLast?_append, e1]; rfl
  · simp only [List.mem_cons, List.not_mem_nil, or_false] at hx
    rcases hx with rfl | rfl
    · left
      rw [String.toList_append, List.getLast?_append, e1]; rfl
    · right
      rw [String.toList_append, List.getLast?_append, e2]; rfl

/-- **C84 (on and off counts).**  For distinct site names, the entries `<name>_Non` and `<name>_Noff` hold the log-likelihoods of the on and of the off counts
of that data set. -/
theorem C84_parts (sites : List LogLikeSites) (h : (siteNames sites).Nodup) (s : LogLikeSites) (hs : s ∈ sites) :
    (logLikeGroup (getLogLike sites)).lookup (s.name ++ "_Non") = some (.points s.on) ∧
    ∀ o, s.off = some o → (logLikeGroup (getLogLike sites)).lookup (s.name ++ "_Noff") = some (.points o) := by
  have hnames : DistinctNames sites := by
    unfold DistinctNames
    rw [siteNames, List.nodup_flatMap] at h
    rw [List.Nodup, List.pairwise_map]
    exact h.2.imp fun {a b} hab he => hab (by simp) (show a.name ∈ _ by rw [he]; simp)
  have hparts : ((sites.flatMap LogLikeSites.parts).map (·.1)).Nodup := by
    rw [List.map_flatMap, List.nodup_flatMap]
    rw [siteNames, List.nodup_flatMap] at h
    refine ⟨fun x hx => (List.nodup_cons.1 (h.1 x hx)).2, h.2.imp fun {a b} hab n hn hn' => hab (List.mem_cons_of_mem _ hn) (List.mem_cons_of_mem _ hn')⟩
  have key : ∀ x ∈ s.parts, (logLikeGroup (getLogLike sites)).lookup x.1 = some (.points x.2) := by
    intro x hx
    have hl := parts_last s x hx
    have hlast : ∀ n : String, n.toList.getLast? ≠ some 'n' → n.toList.getLast? ≠ some 'f' → x.1 ≠ n := by
      rintro n h1 h2 rfl
      rcases hl with hl | hl
      · exact h1 hl
      · exact h2 hl
    have b1 : (x.1 == "channels") = false := by simpa using hlast "channels" (by decide) (by decide)
    have b2 : (x.1 == "total") = false := by simpa using hlast "total" (by decide) (by decide)
    have hg : (sites.map fun s => (s.name ++ "_total", Entry.number s.point.sum)).reverse.lookup x.1 = none := by
      rw [lookup_none_iff, List.map_reverse, List.mem_reverse, List.map_map]
      intro hm
      obtain ⟨t, ht, he⟩ := List.mem_map.1 hm
      have e1 : ("_total" : String).toList.getLast? = some 'l' := by decide
      refine hlast (t.name ++ "_total") ?_ ?_ he.symm <;>
        (rw [String.toList_append, List.getLast?_append, e1]; simp)
    have hp : ((getLogLike sites).point.map fun x => (x.1, Entry.points x.2)).reverse.lookup x.1 = none := by
      have he : ((getLogLike sites).point.map fun x => (x.1, Entry.points x.2)) = sites.map fun s => (s.name, Entry.points s.point) := by
        simp only [getLogLike, point_eq sites hnames, List.map_map, Function.comp_def]
      rw [he, lookup_none_iff, List.map_reverse, List.mem_reverse, List.map_map]
      intro hm
      obtain ⟨t, ht, he⟩ := List.mem_map.1 hm
      change t.name = x.1 at he
      rw [siteNames, List.nodup_flatMap] at h
      by_cases hts : t = s
      · subst hts
        exact (List.nodup_cons.1 (h.1 t ht)).1 (List.mem_map.2 ⟨x, hx, he.symm⟩)
      · have hsym : Std.Symm (Function.onFun List.Disjoint fun s : LogLikeSites => s.name :: s.parts.map (·.1)) :=
          ⟨fun a b hab n h1 h2 => hab h2 h1⟩
        have := List.Pairwise.forall h.2 ht hs hts
        exact this (by simp) (List.mem_cons_of_mem _ (List.mem_map.2 ⟨x, hx, he.symm⟩))
    simp only [logLikeGroup, dictMerge_lookup, List.reverse_cons, List.reverse_nil, List.nil_append, List.lookup_cons, b1, b2, List.lookup_nil,
      group_eq sites hnames, hg, hp]
    have hd : (getLogLike sites).data = sites.flatMap LogLikeSites.parts := dictOf_nodup_eq _ hparts
    rw [hd]
    refine lookup_of_mem _ ?_ (x.1, Entry.points x.2) (List.mem_map.2 ⟨x, List.mem_flatMap.2 ⟨s, hs, hx⟩, rfl⟩)
    rw [List.map_map]; exact hparts
  constructor
  · refine key (s.name ++ "_Non", s.on) ?_
    unfold LogLikeSites.parts
    cases s.off <;> simp
  · intro o ho
    refine key (s.name ++ "_Noff", o) ?_
    unfold LogLikeSites.parts
    rw [ho]; simp

example : (siteNames [⟨"A", [1], none, [1]⟩, ⟨"B", [2], some [1], [2]⟩]).Nodup := by decide

/-- **C84 (channels of a data set, refuted).**  With data sets `A` and `A_total`, the entry `A_total` is the sum over `A`. -/
theorem C84_point_refuted : ∃ (sites : List LogLikeSites), DistinctNames sites ∧ ∃ s ∈ sites,
    (logLikeGroup (getLogLike sites)).lookup s.name ≠ some (.points s.point) := by
  refine ⟨[⟨"A", [1], none, [1]⟩, ⟨"A_total", [2, 3], none, [2, 3]⟩], by unfold DistinctNames; decide,
    ⟨"A_total", [2, 3], none, [2, 3]⟩, by simp, ?_⟩
  have h := C84_total_of [⟨"A", [1], none, [1]⟩, ⟨"A_total", [2, 3], none, [2, 3]⟩] (by unfold DistinctNames; decide)
    ⟨"A", [1], none, [1]⟩ (by simp)
  have he : ("A" ++ "_total" : String) = "A_total" := by decide
  simp only [he] at h
  rw [h]
  simp

theorem ndataKeys_eq (sites : List LogLikeSites) (h : DistinctNames sites) (ht : "total" ∉ sites.map (·.name)) :
    ndataKeys sites = sites.map (·.name) ++ ["total"] := by
  unfold ndataKeys
  rw [dictOf_nodup_eq _ (by rw [List.map_map]; exact h)]
  unfold dictSet
  rw [if_neg (by rw [List.map_map]; exact ht)]
  simp [List.map_map, Function.comp_def]

theorem mapM_ok_map {A B : Type} (f : A → Except PyErr B) (g : A → B) (l : List A) (h : ∀ a ∈ l, f a = .ok (g a)) :
    l.mapM f = .ok (l.map g) := by
  induction l with
  | nil => rfl
  | cons a l ih =>
    rw [List.mapM_cons, h a (by simp), ih fun b hb => h b (List.mem_cons_of_mem _ hb)]
    rfl

/-- **C84 (deviance, part that holds).**  The deviance table has one row per data set, in order, and a last row `total`, holding minus twice the
log-likelihood of the data set and of all data, for all distinct names other than `total`. -/
theorem C84_deviance_partial (sites : List LogLikeSites) (h : DistinctNames sites) (ht : "total" ∉ sites.map (·.name)) :
    devianceTable sites = .ok ((sites.map fun s => (s.name, -2 * s.point.sum)) ++
      [("total", -2 * (sites.flatMap (·.point)).sum)]) := by
  unfold devianceTable
  rw [ndataKeys_eq sites h ht, List.mapM_append, List.mapM_map]
  rw [mapM_ok_map _ (fun s : LogLikeSites => (s.name, -2 * s.point.sum)) sites]
  · simp [List.mapM_cons, statKey, (C84_channels sites h).2, devianceOf, bind, Except.bind, pure, Except.pure]
  · intro s hs
    have hne : s.name ≠ "total" := fun he => ht (List.mem_map.2 ⟨s, hs, he⟩)
    simp only [Function.comp_apply, statKey, if_pos hne, C84_total_of sites h s hs, devianceOf, bind, Except.bind, pure, Except.pure]

/-- **C84 (deviance, refuted).**  A data set called `total` has no row of its own: with it and one more data set the table has two rows, and the row `total` is not
the deviance of that data set. -/
theorem C84_deviance_refuted : ∃ (sites : List LogLikeSites), DistinctNames sites ∧ sites.length = 2 ∧ ∃ s ∈ sites, ∃ rows,
    devianceTable sites = .ok rows ∧ rows.length = 2 ∧ rows.lookup s.name ≠ some (-2 * s.point.sum) := by
  let sites : List LogLikeSites := [⟨"A", [1], none, [1]⟩, ⟨"total", [2], none, [2]⟩]
  have hd : DistinctNames sites := by unfold DistinctNames; decide
  have hk : ndataKeys sites = ["A", "total"] := by decide
  refine ⟨sites, hd, rfl, ⟨"total", [2], none, [2]⟩, by simp [sites], [("A", -2 * 1), ("total", -2 * 3)], ?_, rfl, ?_⟩
  · unfold devianceTable
    rw [hk]
    have hA := C84_total_of sites hd ⟨"A", [1], none, [1]⟩ (by simp [sites])
    have hT := (C84_channels sites hd).2
    have he : ("A" ++ "_total" : String) = statKey "A" := by decide
    have he' : statKey "total" = "total" := by decide
    simp only [he] at hA
    simp only [List.mapM_cons, List.mapM_nil, hA, he', hT, devianceOf, bind, Except.bind, pure, Except.pure, sites, List.flatMap_cons,
      List.flatMap_nil, List.append_nil, List.singleton_append, List.sum_cons, List.sum_nil]
    norm_num
  · have hb : ("total" == "A") = false := by decide
    simp only [List.lookup_cons, hb, beq_self_eq_true, List.sum_cons, List.sum_nil, ne_eq, Option.some.injEq]
    norm_num

example : DistinctNames [⟨"A", [1], none, [1]⟩, ⟨"B", [2], some [1], [2]⟩] ∧
    "total" ∉ ([⟨"A", [1], none, [1]⟩, ⟨"B", [2], some [1], [2]⟩] : List LogLikeSites).map (·.name) := by
  unfold DistinctNames; constructor <;> decide

/-- **C84 (efficiency stored beside the sample sizes, part that holds).**  The relative efficiency is read back as stored, always; the effective sample sizes
are read back as stored, in order, if no parameter is called `reff`. -/
theorem C84_ess_partial (ess : List (String × ℝ)) (reff : ℝ) :
    reffOf (essGroup ess reff) = .ok reff ∧
    ("reff" ∉ ess.map (·.1) → essOf (essGroup ess reff) = ess) := by
  constructor
  · simp [reffOf, essGroup, dictGet, dictMerge_lookup]
  · intro h
    have : essGroup ess reff = ess ++ [("reff", reff)] := by
      show dictSet ess "reff" reff = _
      unfold dictSet
      rw [if_neg h]
    rw [this, essOf, List.filter_append]
    have h1 : ess.filter (fun x => x.1 ≠ "reff") = ess := by
      rw [List.filter_eq_self]
      intro x hx
      simp only [ne_eq, decide_not, Bool.not_eq_eq_eq_not, Bool.not_true, decide_eq_false_iff_not]
      intro he
      exact h (List.mem_map.2 ⟨x, hx, he⟩)
    rw [h1]
    simp

/-- **C84 (refuted).**  The effective sample size of a parameter called `reff` is lost. -/
theorem C84_ess_refuted : ∃ (ess : List (String × ℝ)) (reff : ℝ), (ess.map (·.1)).Nodup ∧ ess.lookup "reff" = some 4000 ∧
    (essOf (essGroup ess reff)).lookup "reff" = none := by
  refine ⟨[("reff", 4000)], 1, by decide, by simp, ?_⟩
  have : essGroup [("reff", 4000)] (1 : ℝ) = [("reff", 1)] := by
    simp [essGroup, dictMerge, dictSet]
  rw [this]
  simp [essOf]

/-- **C84 (relative efficiency of nested sampling, part that holds).**  For jaxns it is the share of effective draws: between zero and one, and the number
of draws times it is the effective sample size. -/
theorem C84_reff_partial (chains : Nat) (m ess : ℝ) (draws : Nat) (h0 : 0 < ess) (h1 : ess ≤ draws) :
    relEff .jaxns chains m ess draws * draws = ess ∧ 0 < relEff .jaxns chains m ess draws ∧ relEff .jaxns chains m ess draws ≤ 1 := by
  have hd : (0 : ℝ) < draws := h0.trans_le h1
  simp only [relEff]
  exact ⟨div_mul_cancel₀ _ hd.ne', div_pos h0 hd, (div_le_one hd).2 h1⟩

example := C84_reff_partial 1 3 250 1000 (by norm_num) (by norm_num)

/-- **C84 (relative efficiency of Markov chains).**  The efficiency used by the Pareto-smoothed estimates is the mean over the parameters of
the relative effective sample sizes if there are several chains, and one for a single chain. -/
theorem C84_reff_mcmc (chains : Nat) (m ess : ℝ) (draws : Nat) :
    (chains ≠ 1 → relEff .mcmc chains m ess draws = m) ∧ relEff .mcmc 1 m ess draws = 1 := by
  constructor
  · intro h; simp [relEff, h]
  · simp [relEff]

/-- **C84 (relative efficiency of nested sampling, refuted).**  For nautilus and UltraNest the "relative" efficiency is the effective sample size itself,
whatever the number of draws: above one in every run with an effective sample size above one (the default asks for 3000), and
the number of draws times it is not the effective sample size unless there is a single draw. -/
theorem C84_reff_refuted (src : EffSource) (hs : src = .nautilus ∨ src = .ultranest) (chains : Nat) (m ess : ℝ) (draws : Nat) :
    relEff src chains m ess draws = ess ∧ (1 < ess → 1 < relEff src chains m ess draws) ∧
    (0 < ess → 1 < draws → relEff src chains m ess draws * draws ≠ ess) := by
  have he : relEff src chains m ess draws = ess := by
    rcases hs with rfl | rfl <;> simp [relEff]
  rw [he]
  refine ⟨rfl, id, fun h0 h1 h => ?_⟩
  have hd : (1 : ℝ) < draws := by exact_mod_cast h1
  nlinarith

/-- **C84 (Pareto table).**  Every channel is counted once; a channel in `bad` or `very bad` has `k ≥ good_k`, and the counts are those of the printed ranges
if no `k` is exactly `good_k` or one. -/
theorem C84_pareto_partial (good : ℝ) (hg : good ≤ 1) (ks : List ℝ) :
    (paretoCounts good ks).sum = ks.length ∧
    ((∀ k ∈ ks, k ≠ good ∧ k ≠ 1) → paretoCounts good ks =
      [ks.countP (fun k => k ≤ good), ks.countP (fun k => good < k ∧ k ≤ 1), ks.countP fun k => 1 < k]) := by
  constructor
  · induction ks with
    | nil => rfl
    | cons k ks ih =>
      simp only [paretoCounts, List.sum_cons, List.sum_nil, List.countP_cons, List.length_cons] at *
      rcases lt_or_ge k good with h | h
      · have h1 : ¬ good ≤ k := not_le.2 h
        have h2 : ¬ (1 : ℝ) ≤ k := by intro h'; linarith
        simp only [h, h1, h2, decide_true, decide_false, false_and, if_true, if_false, Bool.false_eq_true]
        omega
      · have h0 : ¬ k < good := not_lt.2 h
        rcases lt_or_ge k 1 with h' | h'
        · have h2 : ¬ (1 : ℝ) ≤ k := not_le.2 h'
          simp only [h0, h, h', h2, decide_true, decide_false, and_self, if_true, if_false, Bool.false_eq_true]
          omega
        · have h2 : ¬ k < (1 : ℝ) := not_lt.2 h'
          simp only [h0, h, h', h2, decide_true, decide_false, and_false, if_true, if_false, Bool.false_eq_true]
          omega
  · intro h
    simp only [paretoCounts]
    have e : ∀ (p q : ℝ → Bool), (∀ k ∈ ks, p k = q k) → ks.countP p = ks.countP q := fun p q hpq =>
      List.countP_congr fun k hk => by rw [hpq k hk]
    rw [e (fun k => k < good) (fun k => k ≤ good), e (fun k => good ≤ k ∧ k < 1) (fun k => good < k ∧ k ≤ 1), e (fun k => 1 ≤ k) fun k => 1 < k]
    · intro k hk
      have := (h k hk).2
      simp only [decide_eq_decide]
      exact ⟨fun h' => lt_of_le_of_ne h' this.symm, le_of_lt⟩
    · intro k hk
      obtain ⟨h1, h2⟩ := h k hk
      simp only [decide_eq_decide]
      exact ⟨fun h' => ⟨lt_of_le_of_ne h'.1 h1.symm, h'.2.le⟩, fun h' => ⟨h'.1.le, lt_of_le_of_ne h'.2 h2⟩⟩
    · intro k hk
      have := (h k hk).1
      simp only [decide_eq_decide]
      exact ⟨le_of_lt, fun h' => lt_of_le_of_ne h' this⟩

example := C84_pareto_partial 0.7 (by norm_num) [0.1, 0.8, 1.2]

/-- **C84 (Pareto table, refuted).**  A channel with `k` exactly `good_k` is counted as `bad` although the row is headed `(good_k, 1]`. -/
theorem C84_pareto_refuted : paretoCounts (0.7 : ℝ) [0.7] = [0, 1, 0] ∧ ([0.7] : List ℝ).countP (fun k => 0.7 < k ∧ k ≤ 1) = 0 := by
  constructor
  · simp only [paretoCounts, List.countP_cons, List.countP_nil]; norm_num
  · simp

end Elisa.Infer
