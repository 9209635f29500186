import Verif.Infer.Tables
import Verif.Infer.IDataProps
import Verif.Infer.ParamsProps
import Verif.Infer.MaxLikeProps

/-!
# C128: the tables shown for a fit and for its result say what the result says
-/

namespace Elisa.Infer.Tables

open Elisa Elisa.Infer

/-- `f'{x:.2f}'` shows the nearest number of hundredths. -/
def Fmt.Hundredths (f : Fmt) : Prop := ∀ x : ℝ, |(f.cents x : ℝ) - 100 * x| ≤ 1 / 2

/-- `f'{x:.4g}'` shows the number to four significant digits. -/
def Fmt.FourDigits (f : Fmt) : Prop := ∀ x : ℝ, |f.short x - x| ≤ |x| / 2000

/-- The number of hundredths, as the number shown. -/
noncomputable def shown (c : ℤ) : ℝ := (c : ℝ) / 100

theorem shown_near {f : Fmt} (hf : f.Hundredths) (x : ℝ) : |shown (f.cents x) - x| ≤ 0.005 := by
  have := abs_le.1 (hf x)
  rw [shown, abs_le]
  constructor <;> linarith [this.1, this.2]

theorem names_eq (ds : List DataSet) (h : (ds.map (·.name)).Nodup) {V : Type} (g : DataSet → V) :
    dictOf (ds.map fun x => (x.name, g x)) = ds.map fun x => (x.name, g x) := by
  apply dictOf_nodup
  rw [List.map_map]
  exact h

theorem ndata_eq (ds : List DataSet) (h : (ds.map (·.name)).Nodup) (ht : "total" ∉ ds.map (·.name)) :
    ndata ds = (ds.map fun x => (x.name, x.channels)) ++ [("total", (ds.map (·.channels)).sum)] := by
  unfold ndata
  rw [names_eq ds h]
  dsimp only
  unfold dictSet
  rw [if_neg]
  · simp [List.map_map, Function.comp_def]
  · simpa [List.map_map, Function.comp_def] using ht

theorem lookup_append_left {V : Type} (a b : List (String × V)) (k : String) (v : V) (h : a.lookup k = some v) :
    (a ++ b).lookup k = some v := by
  induction a with
  | nil => simp at h
  | cons x a ih =>
    obtain ⟨k', v'⟩ := x
    simp only [List.cons_append, List.lookup_cons] at h ⊢
    cases hk : k == k' <;> simp only [hk] at h ⊢
    · exact ih h
    · exact h

theorem lookup_append_right {V : Type} (a b : List (String × V)) (k : String) (h : k ∉ a.map (·.1)) :
    (a ++ b).lookup k = b.lookup k := by
  induction a with
  | nil => rfl
  | cons x a ih =>
    obtain ⟨k', v'⟩ := x
    simp only [List.map_cons, List.mem_cons, not_or] at h
    have hk : (k == k') = false := by simpa using h.1
    simp only [List.cons_append, List.lookup_cons, hk]
    exact ih h.2

/-- The dictionary of deviances, for distinct names other than `total`. -/
theorem deviance_eq (names : List String) (vals : List ℝ) (h : names.Nodup) (ht : "total" ∉ names) (hl : vals.length = names.length)
    (total : ℝ) : devianceDict names (names.zip vals) total = .ok (names.zip vals ++ [("total", total)]) := by
  unfold devianceDict
  rw [mapM_ok_iff]
  have hm : dictMerge (names.zip vals) [("total", total)] = names.zip vals ++ [("total", total)] := by
    unfold dictMerge dictSet
    simp only [List.foldl_cons, List.foldl_nil]
    rw [if_neg]
    rw [List.map_fst_zip (by omega)]
    exact ht
  refine ⟨by simp [hl], ?_⟩
  intro i x hx
  rw [hm]
  by_cases hi : i < names.length
  · rw [List.getElem?_append_left hi] at hx
    have hv : vals[i]? = some (vals[i]'(by omega)) := List.getElem?_eq_getElem _
    refine ⟨(x, vals[i]'(by omega)), ?_, ?_⟩
    · rw [List.getElem?_append_left (by simp; omega), List.getElem?_zip_eq_some]
      exact ⟨hx, hv⟩
    · unfold dictGet
      rw [lookup_append_left _ _ x (vals[i]'(by omega)) ((lookup_zip names vals h i x hx).trans hv)]
      rfl
  · push Not at hi
    rw [List.getElem?_append_right hi] at hx
    obtain ⟨h0, hx⟩ : i - names.length = 0 ∧ x = "total" := by
      rcases hj : i - names.length with _ | j
      · rw [hj] at hx; simp at hx; exact ⟨rfl, hx.symm⟩
      · rw [hj] at hx; simp at hx
    subst hx
    refine ⟨("total", total), ?_, ?_⟩
    · rw [List.getElem?_append_right (by simp; omega)]
      have : i - (names.zip vals).length = 0 := by simp [hl]; omega
      rw [this]; rfl
    · unfold dictGet
      rw [lookup_append_right _ _ _ (by rw [List.map_fst_zip (by omega)]; exact ht)]
      simp [Except.map]

/-- The rows of the table of statistics, for distinct names other than `total`. -/
theorem table_eq (f : Fmt) (ds : List DataSet) (vals : List ℝ) (total : ℝ) (k : Nat) (h : (ds.map (·.name)).Nodup)
    (ht : "total" ∉ ds.map (·.name)) (hl : vals.length = ds.length) :
    statTable f ds ((ds.map (·.name)).zip vals) total k =
      .ok ((List.zipWith (fun (d : DataSet) v => StatRow.mk d.name (some d.stat) (f.cents v) none d.channels) ds vals) ++
        [StatRow.mk "Total" none (f.cents total) (some ((((ds.map (·.channels)).sum : ℕ) : ℤ) - k)) (ds.map (·.channels)).sum]) := by
  have hn : (dictOf (ds.map fun x => (x.name, ()))).map (·.1) = ds.map (·.name) := by
    rw [names_eq ds h, List.map_map]; rfl
  have hz : (((ds.map (·.name)).zip vals) ++ [("total", total)]).map (·.1) = ds.map (·.name) ++ ["total"] := by
    rw [List.map_append, List.map_fst_zip (by simp [hl])]; rfl
  have hd : dictOf (((ds.map (·.name)).zip vals) ++ [("total", total)]) = ((ds.map (·.name)).zip vals) ++ [("total", total)] := by
    apply dictOf_nodup
    rw [hz]
    refine List.nodup_append.2 ⟨h, List.nodup_singleton _, ?_⟩
    intro a ha b hb hab
    rw [List.mem_singleton] at hb
    rw [hab, hb] at ha
    exact ht ha
  have hk : ((ndata ds).map (·.1)).filter (fun i => i ≠ "total") = ds.map (·.name) := by
    rw [ndata_eq ds h ht, List.map_append, List.map_map, List.filter_append]
    have : (List.map (fun x : DataSet => x.name) ds).filter (fun i => decide (i ≠ "total")) = ds.map (·.name) := by
      rw [List.filter_eq_self]
      intro a ha
      simp only [decide_eq_true_eq]
      rintro rfl
      exact ht ha
    have e1 : ((·.1) : String × ℕ → String) ∘ (fun x : DataSet => (x.name, x.channels)) = fun x => x.name := rfl
    rw [e1, this]
    simp
  have hrows : (ds.map (fun x : DataSet => x.name)).mapM (fun i => do
      let s ← dictGet (dictOf (ds.map fun (x : DataSet) => (x.name, x.stat))) i
      let v ← dictGet (((ds.map (fun x : DataSet => x.name)).zip vals) ++ [("total", total)]) i
      let n ← dictGet (ndata ds) i
      (Except.ok (StatRow.mk i (some s) (f.cents v) none n) : Except PyErr StatRow)) =
      .ok (List.zipWith (fun (d : DataSet) v => StatRow.mk d.name (some d.stat) (f.cents v) none d.channels) ds vals) := by
    rw [mapM_ok_iff]
    refine ⟨by simp [hl], ?_⟩
    intro i x hx
    rw [List.getElem?_map] at hx
    obtain ⟨d, hdi, rfl⟩ := Option.map_eq_some_iff.1 hx
    have hi : i < ds.length := (List.getElem?_eq_some_iff.1 hdi).1
    have hv : vals[i]? = some (vals[i]'(by omega)) := List.getElem?_eq_getElem _
    have hmem : d ∈ ds := List.mem_of_getElem? hdi
    refine ⟨StatRow.mk d.name (some d.stat) (f.cents (vals[i]'(by omega))) none d.channels, ?_, ?_⟩
    · rw [List.getElem?_zipWith, hdi, hv]
    · have e1 : dictGet (dictOf (ds.map fun x => (x.name, x.stat))) d.name = .ok d.stat := by
        rw [names_eq ds h]
        unfold dictGet
        rw [lookup_of_mem (ds.map fun x => (x.name, x.stat)) (by rw [List.map_map]; exact h) (d.name, d.stat)
          (List.mem_map.2 ⟨d, hmem, rfl⟩)]
      have e2 : dictGet (((ds.map (·.name)).zip vals) ++ [("total", total)]) d.name = .ok (vals[i]'(by omega)) := by
        unfold dictGet
        rw [lookup_append_left _ _ d.name (vals[i]'(by omega))
          ((lookup_zip (ds.map (·.name)) vals h i d.name (by rw [List.getElem?_map, hdi]; rfl)).trans hv)]
      have e3 : dictGet (ndata ds) d.name = .ok d.channels := by
        rw [ndata_eq ds h ht]
        unfold dictGet
        rw [lookup_append_left _ _ d.name d.channels
          (lookup_of_mem (ds.map fun x => (x.name, x.channels)) (by rw [List.map_map]; exact h) (d.name, d.channels)
          (List.mem_map.2 ⟨d, hmem, rfl⟩))]
      rw [e1, e2, e3]
      rfl
  have et : dictGet (((ds.map (·.name)).zip vals) ++ [("total", total)]) "total" = .ok total := by
    unfold dictGet
    rw [lookup_append_right _ _ _ (by rw [List.map_fst_zip (by simp [hl])]; exact ht)]
    simp
  have en : dictGet (ndata ds) "total" = .ok (ds.map (·.channels)).sum := by
    rw [ndata_eq ds h ht]
    unfold dictGet
    rw [lookup_append_right _ _ _ (by rw [List.map_map]; exact ht)]
    simp
  unfold statTable
  dsimp only
  rw [hn, deviance_eq _ vals h ht (by simpa using hl)]
  simp only [bind, Except.bind]
  rw [hk, hd]
  simp only [bind, Except.bind] at hrows
  rw [hrows]
  simp only [et, en]

/-- **C128 (the table of statistics).**  If the data sets have distinct names, none of them `total`, the table has one row per data set, in
order: its name, its statistic, the value of that statistic to the nearest hundredth, and the number of its channels.  The last row shows the
total of the statistics to the nearest hundredth, the total number of channels, and that number less the number of free parameters as degrees
of freedom.  The values shown add up to the total shown, within half a hundredth per row.

Missing: a data set may be named `total`, see `C128_total_refuted`. -/
theorem C128_stat_partial (f : Fmt) (hf : f.Hundredths) (ds : List DataSet) (vals : List ℝ) (k : Nat) (h : (ds.map (·.name)).Nodup)
    (ht : "total" ∉ ds.map (·.name)) (hl : vals.length = ds.length) :
    ∃ rows last, statTable f ds ((ds.map (·.name)).zip vals) vals.sum k = .ok (rows ++ [last]) ∧
      rows.length = ds.length ∧
      (∀ (i : Nat) d v, ds[i]? = some d → vals[i]? = some v → ∃ r, rows[i]? = some r ∧ r.data = d.name ∧ r.statistic = some d.stat ∧
        |shown r.value - v| ≤ 0.005 ∧ r.dof = none ∧ r.channels = d.channels) ∧
      last.data = "Total" ∧ last.statistic = none ∧ |shown last.value - vals.sum| ≤ 0.005 ∧
      last.channels = (rows.map (·.channels)).sum ∧ last.dof = some ((last.channels : ℤ) - k) ∧
      |(rows.map fun r => shown r.value).sum - shown last.value| ≤ 0.005 * (ds.length + 1) := by
  refine ⟨_, _, table_eq f ds vals vals.sum k h ht hl, by simp [hl], ?_, rfl, rfl, shown_near hf _, ?_, ?_, ?_⟩
  · intro i d v hd hv
    refine ⟨StatRow.mk d.name (some d.stat) (f.cents v) none d.channels, ?_, rfl, rfl, shown_near hf v, rfl, rfl⟩
    rw [List.getElem?_zipWith, hd, hv]
  · show (ds.map (·.channels)).sum = _
    congr 1
    clear h ht
    induction ds generalizing vals with
    | nil => simp
    | cons d ds ih =>
      cases vals with
      | nil => simp at hl
      | cons v vals =>
        simp only [List.zipWith_cons_cons, List.map_cons, List.cons.injEq, true_and]
        exact ih vals (by simpa using hl)
  · rfl
  · show |_ - shown (f.cents vals.sum)| ≤ _
    have key : |((List.zipWith (fun (d : DataSet) v => StatRow.mk d.name (some d.stat) (f.cents v) none d.channels) ds vals).map
        fun r => shown r.value).sum - vals.sum| ≤ 0.005 * ds.length := by
      clear h ht
      induction ds generalizing vals with
      | nil =>
        have : vals = [] := by simpa using hl
        simp [this]
      | cons d ds ih =>
        cases vals with
        | nil => simp at hl
        | cons v vals =>
          have h1 := abs_le.1 (ih vals (by simpa using hl))
          have h2 := abs_le.1 (shown_near hf v)
          simp only [List.zipWith_cons_cons, List.map_cons, List.sum_cons, List.length_cons]
          push_cast
          rw [abs_le]
          constructor <;> linarith [h1.1, h1.2, h2.1, h2.2]
    have h1 := abs_le.1 key
    have h2 := abs_le.1 (shown_near hf vals.sum)
    rw [abs_le]
    constructor <;> linarith [h1.1, h1.2, h2.1, h2.2]

/-- **C128 (a data set named `total`).**  With a single data set of this name the table has no row for it: whatever its statistic, the only
row is that of the total. -/
theorem C128_total_refuted (f : Fmt) (s : Stat) (n k : Nat) (v : ℝ) :
    statTable f [⟨"total", s, n⟩] [("total", v)] v k = .ok [⟨"Total", none, f.cents v, some ((n : ℤ) - k), n⟩] := by
  have e : ndata [⟨"total", s, n⟩] = [("total", n)] := by simp [ndata, dictOf, dictSet]
  have e2 : (dictOf ([(⟨"total", s, n⟩ : DataSet)].map fun x => (x.name, ()))).map (·.1) = ["total"] := by simp [dictOf, dictSet]
  have e3 : devianceDict ["total"] [("total", v)] v = .ok [("total", v), ("total", v)] := by
    simp [devianceDict, dictMerge, dictSet, dictGet, Except.map, List.mapM_cons, bind, Except.bind, pure, Except.pure]
  unfold statTable
  dsimp only
  rw [e, e2, e3]
  simp [dictOf, dictSet, dictGet, bind, Except.bind, pure, Except.pure]

/-- **C128 (the table of parameters).**  Every reported parameter has exactly one row, in the order of the reported parameters, which shows its
own best-fit value and its own error, each to a relative precision of one in two thousand. -/
theorem C128_params (f : Fmt) (hf : f.FourDigits) (all : List String) (mle err : List ℝ) (h : all.Nodup)
    (hm : mle.length = all.length) (he : err.length = all.length) :
    ∃ rows, paramTable f all mle err = .ok rows ∧ rows.map (·.1) = all ∧
      ∀ (i : Nat) n v e, all[i]? = some n → mle[i]? = some v → err[i]? = some e →
        ∃ r, rows[i]? = some r ∧ r.1 = n ∧ |r.2.1 - v| ≤ |v| / 2000 ∧ |r.2.2 - e| ≤ |e| / 2000 := by
  have hz : (mle.zip err).length = all.length := by simp [hm, he]
  have hd : dictOf (all.zip (mle.zip err)) = all.zip (mle.zip err) := by
    apply dictOf_nodup
    rw [List.map_fst_zip (by omega)]
    exact h
  have hr : paramTable f all mle err = .ok (List.zipWith (fun n (v : ℝ × ℝ) => (n, f.short v.1, f.short v.2)) all (mle.zip err)) := by
    unfold paramTable
    dsimp only
    rw [hd, mapM_ok_iff]
    refine ⟨by simp [hm, he], ?_⟩
    intro i x hx
    have hi : i < all.length := (List.getElem?_eq_some_iff.1 hx).1
    have hv : (mle.zip err)[i]? = some ((mle.zip err)[i]'(by omega)) := List.getElem?_eq_getElem _
    refine ⟨(x, f.short ((mle.zip err)[i]'(by omega)).1, f.short ((mle.zip err)[i]'(by omega)).2), ?_, ?_⟩
    · rw [List.getElem?_zipWith, hx, hv]
    · unfold dictGet
      rw [lookup_zip all _ h i x hx, hv]
      rfl
  refine ⟨_, hr, ?_, ?_⟩
  · rw [List.map_zipWith]
    have : ∀ (a : List String) (b : List (ℝ × ℝ)), b.length = a.length → List.zipWith (fun n (_ : ℝ × ℝ) => n) a b = a := by
      intro a
      induction a with
      | nil => intro b _; simp
      | cons x a ih =>
        intro b hb
        cases b with
        | nil => simp at hb
        | cons y b => simp only [List.zipWith_cons_cons, ih b (by simpa using hb)]
    exact this all _ hz
  · intro i n v e hn hv he'
    refine ⟨(n, f.short v, f.short e), ?_, rfl, hf v, hf e⟩
    rw [List.getElem?_zipWith, hn, (List.getElem?_zip_eq_some (z := (v, e))).2 ⟨hv, he'⟩]

/-- **C128 (the table of information criteria).**  For a fit with more channels than parameters and one to spare, the table shows the corrected
Akaike criterion and the Bayesian criterion of the fit, each to the nearest hundredth; their difference is the difference of the two
penalties, within a hundredth, whatever the statistic is. -/
theorem C128_ic (f : Fmt) (hf : f.Hundredths) (stat : ℝ) (k n : Nat) (h : k + 1 < n) :
    ∃ a b, icTable f stat k n = .ok [("AIC", a), ("BIC", b)] ∧
      |shown a - (stat + 2 * k + 2 * k * (k + 1) / (n - k - 1))| ≤ 0.005 ∧ |shown b - (stat + k * Real.log n)| ≤ 0.005 ∧
      |(shown b - shown a) - k * (Real.log n - 2 - 2 * (k + 1) / (n - k - 1))| ≤ 0.01 := by
  have hne : ¬ ((n : ℤ) - k - 1 = 0) := by omega
  have hpos : (0 : ℝ) < (n : ℝ) - k - 1 := by
    have : ((k + 1 : ℕ) : ℝ) < n := by exact_mod_cast h
    push_cast at this; linarith
  have ha : aic stat k n = .ok (stat + k * 2 * (1 + ((k : ℝ) + 1) / ((n : ℝ) - k - 1))) := by
    unfold aic; rw [if_neg hne]
  have e1 : stat + 2 * k + 2 * k * (k + 1) / (n - k - 1) = stat + k * 2 * (1 + ((k : ℝ) + 1) / ((n : ℝ) - k - 1)) := by
    field_simp; ring
  refine ⟨f.cents (stat + k * 2 * (1 + ((k : ℝ) + 1) / ((n : ℝ) - k - 1))), f.cents (bic stat k n), ?_, ?_, ?_, ?_⟩
  · unfold icTable; rw [ha]; rfl
  · rw [e1]; exact shown_near hf _
  · exact shown_near hf _
  · have h1 := abs_le.1 (shown_near hf (stat + k * 2 * (1 + ((k : ℝ) + 1) / ((n : ℝ) - k - 1))))
    have h2 := abs_le.1 (shown_near hf (bic stat k n))
    have e2 : (k : ℝ) * (Real.log n - 2 - 2 * (k + 1) / (n - k - 1)) =
        bic stat k n - (stat + k * 2 * (1 + ((k : ℝ) + 1) / ((n : ℝ) - k - 1))) := by
      rw [bic]; field_simp; ring
    rw [e2, abs_le]
    constructor <;> linarith [h1.1, h1.2, h2.1, h2.2]

/-- **C128 (the table of parameters of a fit).**  A maximum likelihood fit shows number, component, parameter, value and bound of every
parameter, a Bayesian fit shows the prior instead of the bound; the rows are those of the model, in order, and the header has as many cells
as every row. -/
theorem C128_info (rows : List InfoRow) :
    infoTable .maxLike rows = (["No.", "Component", "Parameter", "Value", "Bound"],
      rows.map fun r => [r.no, r.component, r.parameter, r.value, r.bound]) ∧
    infoTable .bayes rows = (["No.", "Component", "Parameter", "Value", "Prior"],
      rows.map fun r => [r.no, r.component, r.parameter, r.value, r.prior]) := by
  constructor
  · refine Prod.ext ?_ ?_
    · dsimp only [infoTable]; decide
    · apply List.map_congr_left; intro r _; rfl
  · refine Prod.ext ?_ ?_
    · dsimp only [infoTable]; decide
    · apply List.map_congr_left; intro r _; rfl

/-- **C128 (the table of data sets of a fit).**  For distinct names of data sets, the table pairs every data set with its own model and its own
statistic, in order. -/
theorem C128_data (names models stats : List String) (h : names.Nodup) (hm : models.length = names.length)
    (hs : stats.length = names.length) :
    (dataTable names models stats).length = names.length ∧
    ∀ (i : Nat) n m s, names[i]? = some n → models[i]? = some m → stats[i]? = some s →
      (dataTable names models stats)[i]? = some (n, m, s) := by
  have hd : ∀ l : List String, l.length = names.length → dictOf (names.zip l) = names.zip l := by
    intro l hl
    apply dictOf_nodup
    rw [List.map_fst_zip (by omega)]
    exact h
  have e : dataTable names models stats = names.zip (models.zip stats) := by
    unfold dataTable
    dsimp only
    rw [hd names rfl, hd models hm, hd stats hs, List.map_fst_zip le_rfl, List.map_snd_zip (by omega), List.map_snd_zip (by omega)]
  rw [e]
  refine ⟨by simp [hm, hs], ?_⟩
  intro i n m s h1 h2 h3
  rw [List.getElem?_zip_eq_some]
  exact ⟨h1, List.getElem?_zip_eq_some.2 ⟨h2, h3⟩⟩

/-- Rounding to the nearest hundredth and showing the number as it is meets the hypotheses on the formatting. -/
noncomputable def exact' : Fmt where
  cents x := round (100 * x)
  short x := x

example : exact'.Hundredths := fun x => by
  rw [abs_sub_comm]; exact abs_sub_round (100 * x)

example : exact'.FourDigits := fun x => by
  show |x - x| ≤ _
  simp only [sub_self, abs_zero]; positivity

/-- Two data sets: a channel count of 30 and 12, statistics of 31.4142 and 10.006. -/
example : ∃ rows last, statTable exact' [⟨"nai", .pgstat, 30⟩, ⟨"bgo", .wstat, 12⟩] [("nai", 31.4142), ("bgo", 10.006)] 41.4202 4 =
    .ok (rows ++ [last]) ∧ rows.length = 2 ∧ last.channels = 42 ∧ last.dof = some 38 := by
  have := table_eq exact' [⟨"nai", .pgstat, 30⟩, ⟨"bgo", .wstat, 12⟩] [31.4142, 10.006] 41.4202 4 (by decide) (by decide) rfl
  refine ⟨_, _, this, rfl, rfl, rfl⟩

example : (dataTable ["nai", "bgo"] ["PL", "CPL"] ["pgstat", "wstat"]) = [("nai", "PL", "pgstat"), ("bgo", "CPL", "wstat")] := by decide

/-- `C128_stat_partial`, `C128_params` and `C128_ic` on a table of two data sets and two parameters. -/
example (f : Fmt) (hf : f.Hundredths) (h4 : f.FourDigits) :
    (∃ rows last, statTable f [⟨"nai", .pgstat, 30⟩, ⟨"bgo", .wstat, 12⟩] [("nai", 31.4142), ("bgo", 10.006)] ([31.4142, 10.006] : List ℝ).sum 4 =
      .ok (rows ++ [last]) ∧ rows.length = 2) ∧
    (∃ rows, paramTable f ["PL.alpha", "PL.K"] [1.5, 0.01] [0.1, 0.002] = .ok rows ∧ rows.map (·.1) = ["PL.alpha", "PL.K"]) ∧
    ∃ a b, icTable f 41.4202 4 42 = .ok [("AIC", a), ("BIC", b)] := by
  obtain ⟨rows, last, h1, h2, _⟩ := C128_stat_partial f hf [⟨"nai", .pgstat, 30⟩, ⟨"bgo", .wstat, 12⟩] [31.4142, 10.006] 4 (by decide) (by decide) rfl
  obtain ⟨rows', h3, h5, _⟩ := C128_params f h4 ["PL.alpha", "PL.K"] [1.5, 0.01] [0.1, 0.002] (by decide) rfl rfl
  obtain ⟨a, b, h6, _⟩ := C128_ic f hf 41.4202 4 42 (by norm_num)
  exact ⟨⟨rows, last, h1, h2⟩, ⟨rows', h3, h5⟩, a, b, h6⟩

end Elisa.Infer.Tables
