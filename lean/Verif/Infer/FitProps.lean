import Verif.Infer.Fit
import Verif.Infer.StatProps
import Verif.Data.ObsProps
import Verif.Grouping.ScaleProps

/-!
# Properties C43, C44, C45: statistic choice, input pairing, degrees of freedom
-/

namespace Elisa.Infer

open Elisa Elisa.Grouping

/-! ## C43 -/

/-- Documented use of each statistic. -/
def Admissible (d : FitData) : Stat → Prop
  | .chi2 => ∀ e ∈ d.netErrors, e ≠ 0
  | .cstat => d.specPoisson = true ∧ d.back = none
  | .pstat => d.specPoisson = true ∧ ∃ b, d.back = some b
  | .pgstat => d.specPoisson = true ∧ ∃ b, d.back = some b ∧ ∀ e ∈ b.errors, e ≠ 0
  | .wstat => d.specPoisson = true ∧ (∃ b, d.back = some b) ∧ d.backPoisson = true

theorem anyZero_iff (xs : List ℝ) : anyZero xs = false ↔ ∀ e ∈ xs, e ≠ 0 := by
  unfold anyZero
  rw [List.any_eq_false]
  simp

theorem anyZero_mem (xs : List ℝ) : anyZero xs = true ↔ (0 : ℝ) ∈ xs := by
  unfold anyZero
  simp

/-- **C43 (check).**  A statistic is accepted for a dataset exactly when it is admissible, otherwise a
`ValueError` is raised. -/
theorem C43_check (d : FitData) (s : Stat) :
    (checkStat d s = .ok () ↔ Admissible d s) ∧
      (¬ Admissible d s → checkStat d s = .error .valueError) := by
  have key : (Admissible d s ∧ checkStat d s = .ok ()) ∨
      (¬ Admissible d s ∧ checkStat d s = .error .valueError) := by
    unfold checkStat
    cases s with
    | chi2 =>
      simp only [Admissible, ← anyZero_iff]
      cases d.specPoisson <;> cases anyZero d.netErrors <;> simp
    | pgstat =>
      cases hb : d.back with
      | none => cases hp : d.specPoisson <;> simp [Admissible, hb, hp]
      | some b =>
        simp only [Admissible, hb, Option.some.injEq, exists_eq_left', ← anyZero_iff]
        cases d.specPoisson <;> cases anyZero b.errors <;> simp
    | cstat => cases hp : d.specPoisson <;> cases hb : d.back <;> simp [Admissible, hp, hb]
    | pstat => cases hp : d.specPoisson <;> cases hb : d.back <;> simp [Admissible, hp, hb]
    | wstat =>
      cases hp : d.specPoisson <;> cases hb : d.back <;> cases hbp : d.backPoisson <;>
        simp [Admissible, hp, hb, hbp]
  constructor
  · constructor
    · intro h
      rcases key with k | k
      · exact k.1
      · rw [h] at k; simp at k
    · intro h
      rcases key with k | k
      · exact k.2
      · exact absurd h k.1
  · intro h
    rcases key with k | k
    · exact absurd k.1 h
    · exact k.2

/-- **C43 (default).**  The automatically chosen statistic is admissible, except when the Gaussian
uncertainties it needs contain a zero: net errors of Gaussian data, background errors of Poisson data
with a Gaussian background. -/
theorem C43_default (d : FitData) :
    Admissible d (defaultStat d) ↔
      (d.specPoisson = false → ∀ e ∈ d.netErrors, e ≠ 0) ∧
      (∀ b, d.specPoisson = true → d.back = some b → d.backPoisson = false → ∀ e ∈ b.errors, e ≠ 0) := by
  unfold defaultStat
  cases hp : d.specPoisson <;> cases hb : d.back <;> cases hbp : d.backPoisson <;>
    simp [Admissible, hp, hb, hbp]

/-- **C43 (explicit choice).**  `cstat`, `pstat`, `pgstat`, `wstat` are never accepted for Gaussian data,
`cstat` never with a background, the others never without. -/
theorem C43_incompatible (d : FitData) (s : Stat) (h : checkStat d s = .ok ()) :
    (d.specPoisson = false → s = .chi2) ∧ (s = .cstat → d.back = none) ∧
    (s = .pstat ∨ s = .pgstat ∨ s = .wstat → d.back ≠ none) ∧ (s = .wstat → d.backPoisson = true) := by
  have := ((C43_check d s).1).1 h
  cases s <;> simp only [Admissible] at this
  · simp
  · obtain ⟨h1, h2⟩ := this; simp [h1, h2]
  · obtain ⟨h1, b, h2⟩ := this; simp [h1, h2]
  · obtain ⟨h1, b, h2, _⟩ := this; simp [h1, h2]
  · obtain ⟨h1, ⟨b, h2⟩, h3⟩ := this; simp [h1, h2, h3]

theorem effScale_pos {net : Bool} {S : Finset Nat} {c s : Nat → ℝ} (hS : S.Nonempty) (hc : ∀ i ∈ S, 0 ≤ c i)
    (hs : ∀ i ∈ S, 0 < s i) : 0 < effScale net S c s := by
  have hmin := S.exists_min_image s hS
  have hmax := S.exists_max_image s hS
  obtain ⟨i, hi, h1⟩ := hmin
  obtain ⟨k, _, h2⟩ := hmax
  exact lt_of_lt_of_le (hs i hi)
    (C09_scale_between net S c s (s i) (s k) hS (hs i hi) hc fun j hj => ⟨h1 j hj, h2 j hj⟩).1

theorem nth_map_list {α : Type} (L : List α) (f : α → ℝ) {j : Nat} (h : j < L.length) :
    nth (L.map f) j = f L[j] := by
  unfold nth
  simp [List.getD, h]

/-- **C43 (accepted data are usable).**  For an observation that was accepted by the package, with
background counts not negative, data accepted for a statistic satisfy all conditions under which that
statistic is a genuine likelihood (`C25_channel_deviance`, `C25_domain`). -/
theorem C43_accepted_usable (o : Data.Obs) (n : Nat) (ho : o.Legal n) (erange : List (ℝ × ℝ))
    (flags : List Int) (hf : flags.length = n) (s : Stat)
    (hb : s = .pgstat → ∀ b, o.back = some b → ∀ c ∈ b.counts, 0 ≤ c) :
    ∃ st, o.setGrouping erange (some flags) = .ok st ∧
      (checkStat (FitData.ofObs o st) s = .ok () → Usable s (FitData.ofObs o st)) := by
  obtain ⟨st, L, h1, h2, h3⟩ := Data.C16_net_spectrum o n ho erange flags hf
  refine ⟨st, h1, fun hc => ?_⟩
  have had := ((C43_check _ s).1).1 hc
  have hsize : (FitData.ofObs o st).size = L.length := by
    change st.specCounts.length = L.length
    rw [h3.specCounts, List.length_map]
  have hne : ∀ j (h : j < L.length), (o.goodSet L[j].1 L[j].2).Nonempty := by
    intro j hj
    obtain ⟨_, _, i, i1, i2, i3⟩ := (h2.2 L[j].1 L[j].2).1 (List.getElem_mem hj)
    refine ⟨i, ?_⟩
    unfold Data.Obs.goodSet goodIn
    simp [i1, i2, i3]
  have at0_mem : ∀ (xs : List ℝ) (i : Nat), (∀ c ∈ xs, 0 ≤ c) → 0 ≤ at0 xs i := by
    intro xs i h
    unfold at0
    rw [List.getD_eq_getElem?_getD]
    cases hx : xs[i]? with
    | none => simp
    | some x => simpa using h x (List.mem_of_getElem? hx)
  have hspec : o.spec.poisson = true → ∀ j < L.length, 0 ≤ nth st.specCounts j := by
    intro hp j hj
    rw [h3.specCounts, nth_map_list _ _ hj]
    exact Finset.sum_nonneg fun i _ => at0_mem _ i (ho.spec.poissonCounts hp)
  have hlt : ∀ j (h : j < L.length), ∀ i ∈ o.goodSet L[j].1 L[j].2, i < n := by
    intro j hj i hi
    have := Data.mem_goodSet hi
    rw [← ho.good]
    exact (List.getElem?_eq_some_iff.1 this).1
  have hratio : ∀ b, o.back = some b → o.spec.poisson = true → (∀ c ∈ b.counts, 0 ≤ c) →
      ∀ j (h : j < L.length), 0 < o.ratioOf b (o.goodSet L[j].1 L[j].2) := by
    intro b hbk hp hbc j hj
    have hbl := ho.back b hbk
    have hsc : ∀ i ∈ o.goodSet L[j].1 L[j].2, 0 ≤ at0 o.spec.counts i :=
      fun i _ => at0_mem _ i (ho.spec.poissonCounts hp)
    have hbc' : ∀ i ∈ o.goodSet L[j].1 L[j].2, 0 ≤ at0 b.counts i := fun i _ => at0_mem _ i hbc
    unfold Data.Obs.ratioOf
    have e1 := effScale_pos (net := false) (hne j hj) hsc
      (fun i hi => ho.spec.areaPos i (ho.goodSpec i (Data.mem_goodSet hi)) (hlt j hj i hi))
    have e2 := effScale_pos (net := false) (hne j hj) hsc
      (fun i hi => ho.spec.backPos i (ho.goodSpec i (Data.mem_goodSet hi)) (hlt j hj i hi))
    have e3 := effScale_pos (net := false) (hne j hj) hbc'
      (fun i hi => hbl.areaPos i (ho.goodBack b hbk i (Data.mem_goodSet hi)) (hlt j hj i hi))
    have e4 := effScale_pos (net := false) (hne j hj) hbc'
      (fun i hi => hbl.backPos i (ho.goodBack b hbk i (Data.mem_goodSet hi)) (hlt j hj i hi))
    have x1 := ho.spec.exposure
    have x2 := hbl.exposure
    exact div_pos (mul_pos (mul_pos x1 e1) e2) (mul_pos (mul_pos x2 e3) e4)
  have hback : ∀ fb, (FitData.ofObs o st).back = some fb → ∃ b, o.back = some b ∧
      fb = ⟨L.map (fun e => ∑ i ∈ o.goodSet e.1 e.2, at0 b.counts i),
        L.map (fun e => Real.sqrt (∑ i ∈ o.goodSet e.1 e.2, at0 b.errors i ^ 2)),
        L.map (fun e => o.ratioOf b (o.goodSet e.1 e.2))⟩ := by
    intro fb hfb
    cases hbk : o.back with
    | none =>
      have := (h3.noBack hbk).1
      simp [FitData.ofObs, this] at hfb
    | some b =>
      obtain ⟨w, _⟩ := h3.withBack b hbk
      refine ⟨b, rfl, ?_⟩
      simp only [FitData.ofObs, w, Option.map_some, Option.some.injEq] at hfb
      exact hfb.symm
  unfold Usable
  cases s with
  | chi2 =>
    dsimp only
    intro j hj
    rw [hsize] at hj
    change 0 < nth st.netErrors j
    have hlen : j < st.netErrors.length := by
      cases hbk : o.back with
      | none => rw [(h3.noBack hbk).2.2, h3.specErrors]; simpa using hj
      | some b => rw [(h3.withBack b hbk).2.2]; simpa using hj
    have hge : 0 ≤ nth st.netErrors j := by
      cases hbk : o.back with
      | none =>
        rw [(h3.noBack hbk).2.2, h3.specErrors, nth_map_list _ _ hj]; exact Real.sqrt_nonneg _
      | some b => rw [(h3.withBack b hbk).2.2, nth_map_list _ _ hj]; exact Real.sqrt_nonneg _
    refine lt_of_le_of_ne hge (Ne.symm ?_)
    apply had
    change nth st.netErrors j ∈ st.netErrors
    unfold nth
    simp [List.getD, List.getElem?_eq_getElem hlen]
  | cstat =>
    dsimp only
    intro j hj
    exact hspec had.1 j (hsize ▸ hj)
  | pstat =>
    obtain ⟨hp, fb, hfb⟩ := had
    rw [hfb]
    dsimp only
    intro j hj
    exact hspec hp j (hsize ▸ hj)
  | pgstat =>
    obtain ⟨hp, fb, hfb, hz⟩ := had
    rw [hfb]
    dsimp only
    obtain ⟨b, hbk, rfl⟩ := hback fb hfb
    intro j hj
    rw [hsize] at hj
    refine ⟨hspec hp j hj, ?_, ?_⟩
    · rw [nth_map_list _ _ hj]
      refine lt_of_le_of_ne (Real.sqrt_nonneg _) (Ne.symm (hz _ ?_))
      exact List.mem_map.2 ⟨L[j], List.getElem_mem hj, rfl⟩
    · rw [nth_map_list _ _ hj]
      exact hratio b hbk hp (hb rfl b hbk) j hj
  | wstat =>
    obtain ⟨hp, ⟨fb, hfb⟩, hbp⟩ := had
    rw [hfb]
    dsimp only
    obtain ⟨b, hbk, rfl⟩ := hback fb hfb
    have hpois : b.poisson = true := by simpa [FitData.ofObs, hbk] using hbp
    have hbc := (ho.back b hbk).poissonCounts hpois
    intro j hj
    rw [hsize] at hj
    refine ⟨hspec hp j hj, ?_, ?_⟩
    · rw [nth_map_list _ _ hj]
      exact Finset.sum_nonneg fun i _ => at0_mem _ i hbc
    · rw [nth_map_list _ _ hj]
      exact hratio b hbk hp hbc j hj

example : Admissible exFit .wstat ∧ Admissible exFit .pgstat ∧ ¬ Admissible exFit .cstat ∧
    defaultStat exFit = .wstat := by
  simp [Admissible, exFit, defaultStat]

/-! ## C44 -/

/-- `ys` pairs the objects `xs` with `n` datasets: the only one for all, or one for each. -/
def Paired {α : Type} (xs : List α) (n : Nat) (ys : List α) : Prop :=
  ys.length = n ∧ ((∃ x, xs = [x] ∧ ∀ y ∈ ys, y = x) ∨ ys = xs)

theorem broadcast_iff {α : Type} {n : Nat} {xs ys : List α} (hx : xs ≠ []) :
    broadcast n xs = .ok ys ↔ Paired xs n ys := by
  unfold broadcast Paired
  by_cases h1 : xs.length = 1
  · obtain ⟨x, rfl⟩ := List.length_eq_one_iff.1 h1
    have hfl : (List.replicate n [x]).flatten = List.replicate n x := by
      induction n with
      | zero => rfl
      | succ n ih => simp [List.replicate_succ, ih]
    rw [if_pos h1, hfl]
    constructor
    · intro h
      obtain rfl := Except.ok.inj h
      refine ⟨by simp, Or.inl ⟨x, rfl, fun y hy => List.eq_of_mem_replicate hy⟩⟩
    · rintro ⟨hl, ⟨x', hx', hy⟩ | rfl⟩
      · simp only [List.cons.injEq, and_true] at hx'
        subst hx'
        congr 1
        exact (List.eq_replicate_iff.2 ⟨hl, hy⟩).symm
      · simp at hl; subst hl; rfl
  · rw [if_neg h1]
    by_cases h2 : xs.length = n
    · simp only [h2, ne_eq, not_true, if_false]
      constructor
      · intro h
        obtain rfl := Except.ok.inj h
        exact ⟨h2, Or.inr rfl⟩
      · rintro ⟨_, ⟨x, rfl, _⟩ | rfl⟩
        · simp at h1
        · rfl
    · simp only [ne_eq, h2, not_false_iff, if_true]
      constructor
      · intro h; cases h
      · rintro ⟨hl, ⟨x, rfl, _⟩ | rfl⟩
        · simp at h1
        · exact absurd hl h2

/-- The statistics requested by the user, or the default for every dataset. -/
def RequestedStats (data : List (String × FitData)) : Option (OneOrMany String) → List Stat → Prop
  | none, l => l = data.map fun d => defaultStat d.2
  | some (.one s), l => ∃ t, readStat s = some t ∧ l = [t]
  | some (.many ss), l => ss ≠ [] ∧ ss.mapM readStat = some l

/-- The objects behind a one-or-many argument; an empty sequence is not allowed. -/
def Listed {α : Type} : OneOrMany α → List α → Prop
  | .one x, l => l = [x]
  | .many xs, l => l = xs ∧ xs ≠ []

theorem toList_iff {α : Type} (x : OneOrMany α) (l : List α) : x.toList = .ok l ↔ Listed x l := by
  cases x with
  | one x => simp [OneOrMany.toList, Listed, eq_comm]
  | many xs =>
    cases xs with
    | nil => simp [OneOrMany.toList, Listed]
    | cons a as => simp [OneOrMany.toList, Listed, eq_comm]

theorem mapM_check (l : List ((String × FitData) × Stat)) :
    (∃ u, (l.mapM fun x => checkStat x.1.2 x.2) = .ok u) ↔ ∀ x ∈ l, Admissible x.1.2 x.2 := by
  induction l with
  | nil => simp [pure, Except.pure]
  | cons x xs ih =>
    rw [List.mapM_cons]
    simp only [List.mem_cons, forall_eq_or_imp]
    rw [← ih, ← (C43_check x.1.2 x.2).1]
    cases h : checkStat x.1.2 x.2 with
    | error e => simp [bind, Except.bind]
    | ok u =>
      cases h2 : (xs.mapM fun x => checkStat x.1.2 x.2) with
      | error e => simp [bind, Except.bind]
      | ok v => simp [bind, Except.bind, pure, Except.pure]

theorem bind_ok {α β : Type} {x : Except PyErr α} {f : α → Except PyErr β} {y : β} :
    (x >>= f) = .ok y ↔ ∃ a, x = .ok a ∧ f a = .ok y := by
  cases x <;> simp [bind, Except.bind]

theorem raiseIf_ok {c : Bool} {e : PyErr} {u : Unit} : raiseIf c e = .ok u ↔ c = false := by
  unfold raiseIf
  cases c <;> simp

theorem dedup_length_iff {α : Type} [DecidableEq α] (l : List α) : l.dedup.length = l.length ↔ l.Nodup := by
  constructor
  · intro h
    exact List.dedup_eq_self.1 ((List.dedup_sublist l).eq_of_length h)
  · intro h; rw [List.dedup_eq_self.2 h]

theorem statList_iff (data : List (String × FitData)) (stat : Option (OneOrMany String)) (l : List Stat) :
    statList data stat = .ok l ↔ RequestedStats data stat l := by
  cases stat with
  | none => simp [statList, RequestedStats, eq_comm]
  | some s =>
    unfold statList
    simp only []
    rw [bind_ok]
    simp only [toList_iff]
    cases s with
    | one t =>
      simp only [Listed, RequestedStats, exists_eq_left, List.mapM_cons, List.mapM_nil]
      cases readStat t <;> simp [eq_comm]
    | many ts =>
      simp only [Listed, RequestedStats]
      constructor
      · rintro ⟨a, ⟨rfl, h⟩, h2⟩
        refine ⟨h, ?_⟩
        cases hm : (a.mapM readStat) with
        | none => rw [hm] at h2; cases h2
        | some u => rw [hm] at h2; exact congrArg some (Except.ok.inj h2)
      · rintro ⟨h, h2⟩
        refine ⟨ts, ⟨rfl, h⟩, ?_⟩
        rw [h2]

theorem requested_ne_nil {data : List (String × FitData)} {stat : Option (OneOrMany String)} {l : List Stat}
    (hd : data ≠ []) (h : RequestedStats data stat l) : l ≠ [] := by
  cases stat with
  | none => simp only [RequestedStats] at h; subst h; simpa using hd
  | some s =>
    cases s with
    | one t => obtain ⟨_, _, rfl⟩ := h; simp
    | many ts =>
      obtain ⟨h1, h2⟩ := h
      rintro rfl
      cases ts with
      | nil => exact h1 rfl
      | cons t ts =>
        rw [List.mapM_cons] at h2
        cases e1 : readStat t with
        | none => simp [e1] at h2
        | some u =>
          cases e2 : (ts.mapM readStat) with
          | none => simp [e1, e2] at h2
          | some v => simp [e1, e2] at h2

theorem listed_ne_nil {α : Type} {x : OneOrMany α} {l : List α} (h : Listed x l) : l ≠ [] := by
  cases x with
  | one x => simp only [Listed] at h; subst h; simp
  | many xs => obtain ⟨rfl, h⟩ := h; exact h

/-- **C44.**  The input of a fit is accepted exactly when: there are datasets with pairwise different
names, all models are additive, the models (the statistics) are one for all or one for each dataset,
and every dataset admits its statistic.  The result then pairs dataset `i` with model `i` and
statistic `i` (or with the only one), each dataset once and in order. -/
theorem C44_parse_input {M : Type} (isAdd : M → Bool) (data : OneOrMany (String × FitData))
    (model : OneOrMany M) (stat : Option (OneOrMany String))
    (ds : List (String × FitData)) (ms : List M) (ss : List Stat) :
    parseInput isAdd data model stat = .ok (ds, ms, ss) ↔
      Listed data ds ∧ (ds.map (·.1)).Nodup ∧
      (∃ ms0, Listed model ms0 ∧ (∀ m ∈ ms0, isAdd m = true) ∧ Paired ms0 ds.length ms) ∧
      (∃ ss0, RequestedStats ds stat ss0 ∧ Paired ss0 ds.length ss) ∧
      ∀ x ∈ ds.zip ss, Admissible x.1.2 x.2 := by
  unfold parseInput
  simp only [bind_ok, raiseIf_ok, toList_iff, statList_iff]
  constructor
  · rintro ⟨ds', hds, _, hn, ms0, hm, _, ha, ss0, hs, ms', hms, ss', hss, u, hu, he⟩
    have he := Except.ok.inj he
    simp only [Prod.mk.injEq] at he
    obtain ⟨rfl, rfl, rfl⟩ := he
    rw [broadcast_iff (listed_ne_nil hm)] at hms
    rw [broadcast_iff (requested_ne_nil (listed_ne_nil hds) hs)] at hss
    refine ⟨hds, ?_, ⟨ms0, hm, ?_, hms⟩, ⟨ss0, hs, hss⟩, (mapM_check _).1 ⟨u, hu⟩⟩
    · rw [← dedup_length_iff]; simpa using hn
    · simpa using ha
  · rintro ⟨hds, hn, ⟨ms0, hm, ha, hms⟩, ⟨ss0, hs, hss⟩, had⟩
    obtain ⟨u, hu⟩ := (mapM_check _).2 had
    rw [← broadcast_iff (listed_ne_nil hm)] at hms
    rw [← broadcast_iff (requested_ne_nil (listed_ne_nil hds) hs)] at hss
    refine ⟨ds, hds, (), ?_, ms0, hm, (), ?_, ss0, hs, ms, hms, ss, hss, u, hu, rfl⟩
    · rw [← dedup_length_iff] at hn; simpa using hn
    · simpa using ha

/-- two datasets, one model, default statistics -/
example : parseInput (M := String) (fun m => m = "PowerLaw") (.many [("a", exFit), ("b", exFit)])
    (.one "PowerLaw") none = .ok ([("a", exFit), ("b", exFit)], ["PowerLaw", "PowerLaw"], [.wstat, .wstat]) := by
  rw [C44_parse_input]
  refine ⟨⟨rfl, by simp⟩, by decide, ⟨["PowerLaw"], rfl, by simp, rfl, Or.inl ⟨"PowerLaw", rfl, by simp⟩⟩,
    ⟨[.wstat, .wstat], ?_, rfl, Or.inr rfl⟩, ?_⟩
  · simp [RequestedStats, defaultStat, exFit]
  · simp [Admissible, exFit]

/-- **C44 (same data twice).**  The same observation cannot enter a fit twice, since its name would
occur twice. -/
theorem C44_no_repeated_data {M : Type} (isAdd : M → Bool) (d : String × FitData) (e : FitData)
    (rest : List (String × FitData)) (model : OneOrMany M) (stat : Option (OneOrMany String)) :
    parseInput isAdd (.many (d :: (d.1, e) :: rest)) model stat = .error .valueError := by
  unfold parseInput
  have : (((d :: (d.1, e) :: rest).map (·.1)).dedup.length ≠ (d :: (d.1, e) :: rest).length) := by
    intro h
    have := (dedup_length_iff ((d :: (d.1, e) :: rest).map (·.1))).1 (by rw [h, List.length_map])
    simp at this
  simp only [OneOrMany.toList, raiseIf, this, ne_eq, not_false_iff, decide_true, if_true, bind, Except.bind]

/-! ## C45 -/

/-- **C45 (degrees of freedom).**  The degrees of freedom plus the number of free parameters is the number
of noticed groups of all datasets. -/
theorem C45_dof (data : List FitData) (nparam : Nat) :
    dof data nparam + nparam = ((data.map fun d => d.specCounts.length).sum : Nat) := by
  unfold dof ndataTotal FitData.size
  ring

/-- **C45 (information criteria).**  With more than one degree of freedom the reported AIC is the
deviance plus twice the number of parameters plus the non-negative small-sample correction
`2k(k+1)/(n-k-1)`, and BIC is the deviance plus `k log n`. -/
theorem C45_ic_partial (stat : ℝ) (k n : Nat) (h : k + 1 < n) :
    ∃ a, aic stat k n = .ok a ∧ a = stat + 2 * k + 2 * k * (k + 1) / (n - k - 1) ∧ stat + 2 * k ≤ a ∧
      bic stat k n = stat + k * Real.log n ∧ stat ≤ bic stat k n := by
  have hne : (n : Int) - k - 1 ≠ 0 := by omega
  have hpos : (0 : ℝ) < (n : ℝ) - k - 1 := by
    have : ((k + 1 : Nat) : ℝ) < (n : ℝ) := by exact_mod_cast h
    push_cast at this; linarith
  refine ⟨_, if_neg hne, ?_, ?_, rfl, ?_⟩
  · field_simp; ring
  · have : 0 ≤ (k : ℝ) * 2 * (((k : ℝ) + 1) / ((n : ℝ) - k - 1)) := by positivity
    have e : (k : ℝ) * 2 * (1 + ((k : ℝ) + 1) / ((n : ℝ) - k - 1)) =
        2 * k + (k : ℝ) * 2 * (((k : ℝ) + 1) / ((n : ℝ) - k - 1)) := by ring
    linarith
  · unfold bic
    have : 0 ≤ (k : ℝ) * Real.log n := by
      apply mul_nonneg (by positivity)
      apply Real.log_nonneg
      have : 1 ≤ n := by omega
      exact_mod_cast this
    linarith

example := C45_ic_partial 12 3 10 (by norm_num)

/-- **C45 refuted for one degree of freedom.**  A fit whose number of channels exceeds the number of free
parameters by exactly one cannot produce a result: computing the AIC divides by zero. -/
theorem C45_aic_refuted (stat : ℝ) (k : Nat) (data : List FitData) (h : dof data k = 1) :
    aic stat k (ndataTotal data) = .error .zeroDivisionError := by
  unfold dof at h
  exact if_pos (by omega)

example : dof [exFit, exFit, exFit] 2 = 1 := by decide

/-- **C45 refuted without degrees of freedom.**  With fewer channels than parameters the "correction" is
negative and the AIC is lower than the deviance plus twice the number of parameters. -/
theorem C45_aic_negative_refuted (stat : ℝ) (k n : Nat) (hk : 0 < k) (h : n ≤ k) :
    ∃ a, aic stat k n = .ok a ∧ a < stat + 2 * k := by
  have hne : (n : Int) - k - 1 ≠ 0 := by omega
  have hneg : (n : ℝ) - k - 1 < 0 := by
    have : (n : ℝ) ≤ (k : ℝ) := by exact_mod_cast h
    linarith
  refine ⟨_, if_neg hne, ?_⟩
  have hk' : (0 : ℝ) < k := by exact_mod_cast hk
  have : (k : ℝ) * 2 * (((k : ℝ) + 1) / ((n : ℝ) - k - 1)) < 0 := by
    apply mul_neg_of_pos_of_neg (by positivity)
    exact div_neg_of_pos_of_neg (by positivity) hneg
  have e : (k : ℝ) * 2 * (1 + ((k : ℝ) + 1) / ((n : ℝ) - k - 1)) =
      2 * k + (k : ℝ) * 2 * (((k : ℝ) + 1) / ((n : ℝ) - k - 1)) := by ring
  linarith

example := C45_aic_negative_refuted 12 3 2 (by norm_num) (by norm_num)

/-- **C44** (names of the statistics).  The five documented names are read as the five statistics and every other text
is rejected. -/
theorem C44_stat_names (name : String) (t : Stat) :
    readStat name = some t ↔ (name, t) ∈ [("chi2", Stat.chi2), ("cstat", Stat.cstat), ("pstat", Stat.pstat),
      ("pgstat", Stat.pgstat), ("wstat", Stat.wstat)] := by
  unfold readStat
  split_ifs with h1 h2 h3 h4 h5
  · subst h1; cases t <;> decide
  · subst h2; cases t <;> decide
  · subst h3; cases t <;> decide
  · subst h4; cases t <;> decide
  · subst h5; cases t <;> decide
  · simp [h1, h2, h3, h4, h5]

example : readStat "wstat" = some .wstat ∧ readStat "Wstat" = none := by decide

end Elisa.Infer
