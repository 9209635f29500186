import Verif.Infer.BalanceProps

/-!
# C138: fitting repeated observations together is fitting their sum

Several observations made with the same response differ in exposure and counts only.  They can be given to a fit as separate
data sets with one model, or added up first.
-/

namespace Elisa.Infer.Stack

open Elisa Elisa.Infer

/-! ## Specification -/

/-- The fit reports the statistic `x` for these data sets, statistics and model values. -/
def Reports (ds : List (Stat × FitData × List ℝ)) (x : ℝ) : Prop :=
  ∃ sites, fitSites ds = .ok sites ∧ (deviance (getLoglike sites)).total = x

/-- `t` is the sum of the observations `ds`: same response and area scale, added counts, added exposures. -/
structure SumOf (ds : List FitData) (t : FitData) : Prop where
  some : ds ≠ []
  response : ∀ d ∈ ds, d.matrix = t.matrix ∧ d.areaScale = t.areaScale ∧ d.size = t.size
  exposed : ∀ d ∈ ds, 0 < d.exposure
  exposure : t.exposure = (ds.map FitData.exposure).sum
  counts : ∀ j < t.size, nth t.specCounts j = (ds.map fun d => nth d.specCounts j).sum

/-- Counts of the known background of `pstat` in channel `j`. -/
def known (d : FitData) (j : Nat) : ℝ := (d.back.map fun b => nth b.ratio j * nth b.counts j).getD 0

/-- The model values are such that nothing is clipped in any of the observations or in their sum. -/
def Fits (stat : Stat) (ds : List FitData) (t : FitData) (u : List ℝ) : Prop :=
  (∀ d ∈ ds, InRange stat d u (d.folded u)) ∧ InRange stat t u (t.folded u)

/-! ## Lemmas -/

theorem fitSites_ok (ds : List (Stat × FitData × List ℝ)) (h : ∀ x ∈ ds, ∃ s, likelihood x.1 x.2.1 x.2.2 = .ok s) : ∃ sites, fitSites ds = .ok sites := by
  unfold fitSites
  induction ds with
  | nil => exact ⟨[], rfl⟩
  | cons x xs ih =>
    obtain ⟨s, hs⟩ := h x (by simp)
    obtain ⟨ss, hss⟩ := ih fun y hy => h y (by simp [hy])
    refine ⟨s :: ss, ?_⟩
    rw [List.mapM_cons, hs, hss]
    rfl

theorem reports_sum (ds : List (Stat × FitData × List ℝ)) (hu : ∀ x ∈ ds, Usable x.1 x.2.1 ∧ InRange x.1 x.2.1 x.2.2 (x.2.1.folded x.2.2)) :
    ∀ y, Reports ds y ↔ y = (ds.map devOf).sum := by
  obtain ⟨sites, hs⟩ := fitSites_ok ds fun x hx => by
    obtain ⟨s, h, -⟩ := likelihood_point (hu x hx).1 (hu x hx).2
    exact ⟨s, h⟩
  intro y
  constructor
  · rintro ⟨s, h1, rfl⟩
    exact fitSites_total ds s h1
  · rintro rfl
    exact ⟨sites, hs, fitSites_total ds sites hs⟩

theorem dev_of_point {stat : Stat} {d : FitData} {u : List ℝ} (hu : Usable stat d) (hr : InRange stat d u (d.folded u)) {f : Nat → ℝ}
    (h : ∀ j < d.size, ∀ D, IsDeviance stat d j (d.folded u j) D → D = f j) : devOf (stat, d, u) = ∑ j ∈ Finset.range d.size, f j := by
  obtain ⟨s, h1, h2, h3⟩ := likelihood_point hu hr
  unfold devOf
  simp only [h1]
  rw [nth_sum, h2, Finset.mul_sum]
  exact Finset.sum_congr rfl fun j hj => h j (Finset.mem_range.1 hj) _ (h3 j (Finset.mem_range.1 hj)).2

theorem pois_dev {n μ D : ℝ} (hn : 0 ≤ n) (hμ : 0 < μ) (h : Real.exp (-D / 2) = poisLik n μ / poisLik n n) : D = 2 * (cost n μ - cost n n) := by
  have hnn : (0 < n ∨ n = 0) := hn.eq_or_lt.elim (fun h => Or.inr h.symm) Or.inl
  rw [poisLik_cost hμ.le (Or.inl hμ), poisLik_cost hn hnn, ← Real.exp_sub, Real.exp_eq_exp] at h
  linarith

theorem counting_dev {stat : Stat} {d : FitData} {u : List ℝ} (hs : stat = .cstat ∨ stat = .pstat) (hu : Usable stat d) (hr : InRange stat d u (d.folded u)) :
    devOf (stat, d, u) = ∑ j ∈ Finset.range d.size, 2 * (cost (nth d.specCounts j) (expected stat d j (d.folded u j)) - cost (nth d.specCounts j) (nth d.specCounts j)) := by
  apply dev_of_point hu hr
  intro j hj D hD
  have hpos : 0 < expected stat d j (d.folded u j) := by
    have := (hr.2 j hj).2.1
    have : (0 : ℝ) < 1e-30 := by norm_num
    linarith
  rcases hs with rfl | rfl
  · exact pois_dev (hu j hj) hpos hD
  · unfold IsDeviance Usable at *
    cases hb : d.back with
    | none => simp [hb] at hu
    | some b =>
      have e : expected .pstat d j (d.folded u j) = d.folded u j + nth b.ratio j * nth b.counts j := by simp [expected, hb]
      simp only [hb] at hu hD
      rw [e] at hpos ⊢
      exact pois_dev (hu j hj) hpos hD

/-- Source counts per unit exposure. -/
noncomputable def rate (d : FitData) (u : List ℝ) (j : Nat) : ℝ := nth d.areaScale j * ∑ r ∈ Finset.range d.matrix.length, nth (d.matrix.getD r []) j * nth u r

theorem folded_rate (d : FitData) (u : List ℝ) (j : Nat) : d.folded u j = d.exposure * rate d u j := by
  unfold FitData.folded rate
  ring

theorem rate_same {ds : List FitData} {t : FitData} (h : SumOf ds t) {d : FitData} (hd : d ∈ ds) (u : List ℝ) (j : Nat) : rate d u j = rate t u j := by
  obtain ⟨h1, h2, -⟩ := h.response d hd
  unfold rate
  rw [h1, h2]

theorem sum_exposed {ds : List FitData} {t : FitData} (h : SumOf ds t) : 0 < t.exposure := by
  rw [h.exposure]
  exact List.sum_pos _ (by
    intro x hx
    obtain ⟨d, hd, rfl⟩ := List.mem_map.1 hx
    exact h.exposed d hd) (by simpa using h.some)

/-- exchange of the sums over data sets and channels -/
theorem swap {α : Type} (l : List α) (n : Nat) (f : α → Nat → ℝ) : (l.map fun d => ∑ j ∈ Finset.range n, f d j).sum = ∑ j ∈ Finset.range n, (l.map fun d => f d j).sum := by
  induction l with
  | nil => simp
  | cons a l ih => simp only [List.map_cons, List.sum_cons, ih, Finset.sum_add_distrib]

/-- One channel: the rate `r` enters the joint and the summed statistic in the same way. -/
theorem channel {α : Type} (l : List α) (n t : α → ℝ) (ht : ∀ d ∈ l, 0 < t d) {r : ℝ} (hr : 0 < r) (hT : 0 < (l.map t).sum) :
    (l.map fun d => cost (n d) (t d * r)).sum - cost (l.map n).sum ((l.map t).sum * r) =
      (l.map n).sum * Real.log (l.map t).sum - (l.map fun d => n d * Real.log (t d)).sum := by
  have key : (l.map fun d => cost (n d) (t d * r)).sum = (l.map t).sum * r - (l.map n).sum * Real.log r - (l.map fun d => n d * Real.log (t d)).sum := by
    clear hT
    induction l with
    | nil => simp
    | cons a l ih =>
      have ha := ht a (by simp)
      simp only [List.map_cons, List.sum_cons]
      rw [ih fun d hd => ht d (by simp [hd])]
      unfold cost
      rw [Real.log_mul ha.ne' hr.ne']
      ring
  rw [key]
  unfold cost
  rw [Real.log_mul hT.ne' hr.ne']
  ring

/-- The part of the difference between joint and summed statistic that the model cannot change. -/
noncomputable def offset (ds : List FitData) (t : FitData) : ℝ :=
  ∑ j ∈ Finset.range t.size, 2 * (nth t.specCounts j * Real.log t.exposure - (ds.map fun d => nth d.specCounts j * Real.log d.exposure).sum
    - ((ds.map fun d => cost (nth d.specCounts j) (nth d.specCounts j)).sum - cost (nth t.specCounts j) (nth t.specCounts j)))

theorem joint_eq {stat : Stat} (hs : stat = .cstat ∨ stat = .pstat) {ds : List FitData} {t : FitData} (h : SumOf ds t)
    (hb : stat = .pstat → ∀ j < t.size, ∀ d ∈ ds, known d j * t.exposure = known t j * d.exposure)
    (hud : ∀ d ∈ ds, Usable stat d) (hut : Usable stat t) {u : List ℝ} (hf : Fits stat ds t u) :
    (ds.map fun d => devOf (stat, d, u)).sum - devOf (stat, t, u) = offset ds t := by
  have hT := sum_exposed h
  set K : Nat → ℝ := fun j => if stat = .pstat then known t j / t.exposure else 0 with hK
  have hexp : ∀ d, (d ∈ ds ∨ d = t) → Usable stat d → ∀ j < t.size, expected stat d j (d.folded u j) = d.exposure * (rate t u j + K j) := by
    intro d hd hud j hj
    have hrate : rate d u j = rate t u j := by
      rcases hd with hd | rfl
      · exact rate_same h hd u j
      · rfl
    rw [folded_rate, hrate]
    rcases hs with rfl | rfl
    · simp [expected, hK]
    · simp only [hK, if_true]
      cases hbk : d.back with
      | none => simp [Usable, hbk] at hud
      | some b =>
        have hkn : known d j = nth b.ratio j * nth b.counts j := by simp [known, hbk]
        have hpr : known d j = d.exposure * (known t j / t.exposure) := by
          rcases hd with hd | rfl
          · rw [mul_div_assoc', eq_div_iff hT.ne', hb rfl j hj d hd]; ring
          · field_simp
        simp only [expected, hbk]
        rw [← hkn, hpr]; ring
  have hpos : ∀ j < t.size, 0 < rate t u j + K j := by
    intro j hj
    have h1 := (hf.2.2 j hj).2.1
    rw [hexp t (Or.inr rfl) hut j hj] at h1
    have : (0 : ℝ) < 1e-30 := by norm_num
    exact pos_of_mul_pos_right (lt_of_lt_of_le this h1) hT.le
  have e1 : (ds.map fun d => devOf (stat, d, u)).sum = (ds.map fun d => ∑ j ∈ Finset.range t.size,
      2 * (cost (nth d.specCounts j) (d.exposure * (rate t u j + K j)) - cost (nth d.specCounts j) (nth d.specCounts j))).sum := by
    congr 1
    apply List.map_congr_left
    intro d hd
    rw [counting_dev hs (hud d hd) (hf.1 d hd), (h.response d hd).2.2]
    apply Finset.sum_congr rfl
    intro j hj
    rw [hexp d (Or.inl hd) (hud d hd) j (Finset.mem_range.1 hj)]
  have e2 : devOf (stat, t, u) = ∑ j ∈ Finset.range t.size, 2 * (cost (nth t.specCounts j) (t.exposure * (rate t u j + K j)) - cost (nth t.specCounts j) (nth t.specCounts j)) := by
    rw [counting_dev hs hut hf.2]
    apply Finset.sum_congr rfl
    intro j hj
    rw [hexp t (Or.inr rfl) hut j (Finset.mem_range.1 hj)]
  rw [e1, e2, swap, ← Finset.sum_sub_distrib]
  unfold offset
  apply Finset.sum_congr rfl
  intro j hj
  have hj' := Finset.mem_range.1 hj
  have hc := channel ds (fun d => nth d.specCounts j) FitData.exposure h.exposed (hpos j hj') (by rw [← h.exposure]; exact hT)
  rw [← h.exposure, ← h.counts j hj'] at hc
  rw [← hc]
  have e3 : ∀ l : List FitData, (l.map fun d => 2 * (cost (nth d.specCounts j) (d.exposure * (rate t u j + K j)) - cost (nth d.specCounts j) (nth d.specCounts j))).sum =
      2 * ((l.map fun d => cost (nth d.specCounts j) (d.exposure * (rate t u j + K j))).sum - (l.map fun d => cost (nth d.specCounts j) (nth d.specCounts j)).sum) := by
    intro l
    induction l with
    | nil => simp
    | cons a l ih => simp only [List.map_cons, List.sum_cons, ih]; ring
  rw [e3]
  ring

/-! ## C138 -/

/-- **C138 (repeated observations).**  For observations made with one response, the statistic of the joint fit and that of the fit of
their sum differ by a number that does not depend on the model: for any two sets of model values `u` and `v` the statistics change by
the same amount.  Without background, or with a known background that accumulates with the exposure. -/
theorem C138_stack (stat : Stat) (hs : stat = .cstat ∨ stat = .pstat) (ds : List FitData) (t : FitData) (h : SumOf ds t)
    (hb : stat = .pstat → ∀ j < t.size, ∀ d ∈ ds, known d j * t.exposure = known t j * d.exposure)
    (hud : ∀ d ∈ ds, Usable stat d) (hut : Usable stat t) (u v : List ℝ) (hu : Fits stat ds t u) (hv : Fits stat ds t v) :
    ∃ ju tu jv tv, Reports (ds.map fun d => (stat, d, u)) ju ∧ Reports [(stat, t, u)] tu ∧
      Reports (ds.map fun d => (stat, d, v)) jv ∧ Reports [(stat, t, v)] tv ∧ ju - jv = tu - tv := by
  have key : ∀ w, Fits stat ds t w → Reports (ds.map fun d => (stat, d, w)) ((ds.map fun d => devOf (stat, d, w)).sum) ∧ Reports [(stat, t, w)] (devOf (stat, t, w)) := by
    intro w hw
    constructor
    · rw [reports_sum _ (by
        intro x hx
        obtain ⟨d, hd, rfl⟩ := List.mem_map.1 hx
        exact ⟨hud d hd, hw.1 d hd⟩), List.map_map]
      rfl
    · rw [reports_sum _ (by
        intro x hx
        obtain rfl := List.mem_singleton.1 hx
        exact ⟨hut, hw.2⟩)]
      simp
  obtain ⟨a1, a2⟩ := key u hu
  obtain ⟨b1, b2⟩ := key v hv
  refine ⟨_, _, _, _, a1, a2, b1, b2, ?_⟩
  have c1 := joint_eq hs h hb hud hut hu
  have c2 := joint_eq hs h hb hud hut hv
  linarith

/-- **C138 (best fit).**  Among any family of model values the best joint fits are exactly the best fits of the sum. -/
theorem C138_best (stat : Stat) (hs : stat = .cstat ∨ stat = .pstat) (ds : List FitData) (t : FitData) (h : SumOf ds t)
    (hb : stat = .pstat → ∀ j < t.size, ∀ d ∈ ds, known d j * t.exposure = known t j * d.exposure)
    (hud : ∀ d ∈ ds, Usable stat d) (hut : Usable stat t) (family : Set (List ℝ)) (hf : ∀ u ∈ family, Fits stat ds t u) (u : List ℝ) (hu : u ∈ family) :
    (∀ v ∈ family, ∀ a b, Reports (ds.map fun d => (stat, d, u)) a → Reports (ds.map fun d => (stat, d, v)) b → a ≤ b) ↔
      (∀ v ∈ family, ∀ a b, Reports [(stat, t, u)] a → Reports [(stat, t, v)] b → a ≤ b) := by
  have uniq : ∀ {l x y}, Reports l x → Reports l y → x = y := by
    rintro l x y ⟨s, h1, rfl⟩ ⟨s', h2, rfl⟩
    rw [h1] at h2
    cases h2
    rfl
  constructor
  · intro H v hv a b ha hb'
    obtain ⟨ju, tu, jv, tv, r1, r2, r3, r4, e⟩ := C138_stack stat hs ds t h hb hud hut u v (hf u hu) (hf v hv)
    have := H v hv _ _ r1 r3
    rw [uniq ha r2, uniq hb' r4]
    linarith
  · intro H v hv a b ha hb'
    obtain ⟨ju, tu, jv, tv, r1, r2, r3, r4, e⟩ := C138_stack stat hs ds t h hb hud hut u v (hf u hu) (hf v hv)
    have := H v hv _ _ r2 r4
    rw [uniq ha r1, uniq hb' r3]
    linarith

/-- **C138 (`chi2`).**  The same holds for `chi2` if the squared errors of each channel grow with the exposure. -/
theorem C138_chi2 (ds : List FitData) (t : FitData) (h : SumOf ds t)
    (hnet : ∀ j < t.size, nth t.netCounts j = (ds.map fun d => nth d.netCounts j).sum)
    (herr : ∀ j < t.size, ∀ d ∈ ds, nth d.netErrors j ^ 2 * t.exposure = nth t.netErrors j ^ 2 * d.exposure)
    (hud : ∀ d ∈ ds, Usable .chi2 d) (hut : Usable .chi2 t) (u v : List ℝ) (hu : Fits .chi2 ds t u) (hv : Fits .chi2 ds t v) :
    ∃ ju tu jv tv, Reports (ds.map fun d => (.chi2, d, u)) ju ∧ Reports [(.chi2, t, u)] tu ∧
      Reports (ds.map fun d => (.chi2, d, v)) jv ∧ Reports [(.chi2, t, v)] tv ∧ ju - jv = tu - tv := by
  have hT := sum_exposed h
  have hdev : ∀ d w, Usable .chi2 d → InRange .chi2 d w (d.folded w) →
      devOf (.chi2, d, w) = ∑ j ∈ Finset.range d.size, (nth d.netCounts j - d.folded w j) ^ 2 / nth d.netErrors j ^ 2 := by
    intro d w hd hr
    apply dev_of_point hd hr
    intro j hj D hD
    have hD' : Real.exp (-D / 2) = Real.exp (-((nth d.netCounts j - d.folded w j) ^ 2 / (2 * nth d.netErrors j ^ 2))) := hD
    rw [Real.exp_eq_exp] at hD'
    have : (nth d.netCounts j - d.folded w j) ^ 2 / (2 * nth d.netErrors j ^ 2) = (nth d.netCounts j - d.folded w j) ^ 2 / nth d.netErrors j ^ 2 / 2 := by
      rw [div_div, mul_comm]
    rw [this] at hD'
    linarith
  have key : ∀ w, Fits .chi2 ds t w → Reports (ds.map fun d => (.chi2, d, w)) ((ds.map fun d => devOf (.chi2, d, w)).sum) ∧ Reports [(.chi2, t, w)] (devOf (.chi2, t, w)) ∧
      (ds.map fun d => devOf (.chi2, d, w)).sum - devOf (.chi2, t, w) = ∑ j ∈ Finset.range t.size,
        ((ds.map fun d => nth d.netCounts j ^ 2 / nth d.netErrors j ^ 2).sum - nth t.netCounts j ^ 2 / nth t.netErrors j ^ 2) := by
    intro w hw
    refine ⟨?_, ?_, ?_⟩
    · rw [reports_sum _ (by
        intro x hx
        obtain ⟨d, hd, rfl⟩ := List.mem_map.1 hx
        exact ⟨hud d hd, hw.1 d hd⟩), List.map_map]
      rfl
    · rw [reports_sum _ (by
        intro x hx
        obtain rfl := List.mem_singleton.1 hx
        exact ⟨hut, hw.2⟩)]
      simp
    · have e1 : (ds.map fun d => devOf (.chi2, d, w)).sum = (ds.map fun d => ∑ j ∈ Finset.range t.size, (nth d.netCounts j - d.exposure * rate t w j) ^ 2 / nth d.netErrors j ^ 2).sum := by
        congr 1
        apply List.map_congr_left
        intro d hd
        rw [hdev d w (hud d hd) (hw.1 d hd), (h.response d hd).2.2]
        apply Finset.sum_congr rfl
        intro j _
        rw [folded_rate, rate_same h hd]
      rw [e1, hdev t w hut hw.2, swap, ← Finset.sum_sub_distrib]
      apply Finset.sum_congr rfl
      intro j hj
      have hj' := Finset.mem_range.1 hj
      rw [folded_rate]
      have hσ : 0 < nth t.netErrors j := hut j hj'
      -- each observation on its own
      have e2 : ∀ l : List FitData, (∀ d ∈ l, d ∈ ds) → (l.map fun d => (nth d.netCounts j - d.exposure * rate t w j) ^ 2 / nth d.netErrors j ^ 2).sum =
          (l.map fun d => nth d.netCounts j ^ 2 / nth d.netErrors j ^ 2).sum +
            (t.exposure * (l.map FitData.exposure).sum * rate t w j ^ 2 - 2 * t.exposure * (l.map fun d => nth d.netCounts j).sum * rate t w j) / nth t.netErrors j ^ 2 := by
        intro l
        induction l with
        | nil => simp
        | cons d l ih =>
          intro hl
          have hd := hl d (by simp)
          have hs : 0 < nth d.netErrors j := hud d hd j (by rw [(h.response d hd).2.2]; exact hj')
          have he := herr j hj' d hd
          have hx := h.exposed d hd
          simp only [List.map_cons, List.sum_cons]
          rw [ih fun e he => hl e (by simp [he])]
          have e3 : nth d.netErrors j ^ 2 = nth t.netErrors j ^ 2 * d.exposure / t.exposure := by
            rw [eq_div_iff hT.ne', he]
          rw [e3]
          field_simp
          ring
      rw [e2 ds fun d hd => hd, ← h.exposure, ← hnet j hj']
      field_simp
      ring
  obtain ⟨a1, a2, a3⟩ := key u hu
  obtain ⟨b1, b2, b3⟩ := key v hv
  exact ⟨_, _, _, _, a1, a2, b1, b2, by linarith⟩

/-! ### An example -/

/-- One channel, `n` counts in the source and `m` in the background region, exposure `x`. -/
noncomputable def obs (n m x : ℝ) : FitData where
  specCounts := [n]
  specErrors := [1]
  netCounts := [n]
  netErrors := [Real.sqrt x]
  back := some ⟨[m], [1], [1]⟩
  matrix := [[1]]
  areaScale := [1]
  exposure := x
  specPoisson := true
  backPoisson := true

theorem obs_folded (n m x a : ℝ) : (obs n m x).folded [a] 0 = x * a := by
  simp [FitData.folded, obs, nth]

theorem obs_sum : SumOf [obs 1 0 1, obs 0 1 1] (obs 1 1 2) where
  some := by simp
  response := by simp [obs, FitData.size]
  exposed := by simp [obs]
  exposure := by simp [obs]; norm_num
  counts := by
    intro j hj
    have : j = 0 := by simpa [obs, FitData.size] using hj
    subst this
    simp [obs, nth]

theorem obs_range {stat : Stat} (hs : stat ≠ .pstat) {n m x a : ℝ} (h : x = 1 ∨ x = 2) (h1 : 1 / 2 ≤ a) (h2 : a ≤ 10) : InRange stat (obs n m x) [a] ((obs n m x).folded [a]) := by
  constructor
  · intro r hr
    have : r = 0 := by simpa [obs] using hr
    subst this
    simp only [nth, List.getD_cons_zero]
    set_option exponentiation.threshold 400 in
    constructor <;> norm_num <;> linarith
  · intro j hj
    have : j = 0 := by simpa [obs, FitData.size] using hj
    subst this
    have he : ∀ s, expected stat (obs n m x) 0 s = s := by
      intro s
      cases stat <;> first | rfl | exact absurd rfl hs
    rw [he, obs_folded]
    refine ⟨rfl, ?_⟩
    rcases h with rfl | rfl <;> constructor <;> norm_num <;> linarith

theorem obs_fits {stat : Stat} (hs : stat ≠ .pstat) {a : ℝ} (h1 : 1 / 2 ≤ a) (h2 : a ≤ 10) : Fits stat [obs 1 0 1, obs 0 1 1] (obs 1 1 2) [a] := by
  refine ⟨?_, obs_range hs (Or.inr rfl) h1 h2⟩
  intro d hd
  simp only [List.mem_cons, List.not_mem_nil, or_false] at hd
  rcases hd with rfl | rfl
  · exact obs_range hs (Or.inl rfl) h1 h2
  · exact obs_range hs (Or.inl rfl) h1 h2

/-- The hypotheses of the theorems are met by two observations of one channel. -/
example : ∃ ju tu jv tv, Reports ([obs 1 0 1, obs 0 1 1].map fun d => (.cstat, d, [2])) ju ∧ Reports [(.cstat, obs 1 1 2, [2])] tu ∧
    Reports ([obs 1 0 1, obs 0 1 1].map fun d => (.cstat, d, [3])) jv ∧ Reports [(.cstat, obs 1 1 2, [3])] tv ∧ ju - jv = tu - tv :=
  C138_stack .cstat (Or.inl rfl) _ _ obs_sum (by simp) (by simp [Usable, obs, FitData.size, nth]) (by simp [Usable, obs, FitData.size, nth]) _ _
    (obs_fits (by decide) (by norm_num) (by norm_num)) (obs_fits (by decide) (by norm_num) (by norm_num))

example : ∃ ju tu jv tv, Reports ([obs 1 0 1, obs 0 1 1].map fun d => (.chi2, d, [2])) ju ∧ Reports [(.chi2, obs 1 1 2, [2])] tu ∧
    Reports ([obs 1 0 1, obs 0 1 1].map fun d => (.chi2, d, [3])) jv ∧ Reports [(.chi2, obs 1 1 2, [3])] tv ∧ ju - jv = tu - tv :=
  C138_chi2 _ _ obs_sum (by simp [obs, FitData.size, nth]) (by simp [obs, FitData.size, nth]) (by simp [Usable, obs, FitData.size, nth]) (by simp [Usable, obs, FitData.size, nth]) _ _
    (obs_fits (by decide) (by norm_num) (by norm_num)) (obs_fits (by decide) (by norm_num) (by norm_num))

theorem obs_wstat {n m x a b : ℝ} (hn : 0 ≤ n) (hm : 0 ≤ m) (h : x = 1 ∨ x = 2) (h1 : 1 / 2 ≤ a) (h2 : a ≤ 10) (hb : wstatBackground (x * a) n m 1 = b) (hb0 : 0 < b ∨ b = 0 ∧ m = 0) :
    devOf (.wstat, obs n m x, [a]) = 2 * ((cost n (x * a + b) - cost n n) + (cost m b - cost m m)) := by
  have hsc := sourceCounts_eq (stat := .wstat) (by decide) (obs_range (stat := .wstat) (n := n) (m := m) (by decide) h h1 h2) 0 (by simp [obs, FitData.size])
  rw [obs_folded] at hsc
  have hlik : likelihood .wstat (obs n m x) [a] = .ok ⟨[n], [x * a + b], some ([m], [b], [poissonLogProb m b]), [poissonLogProb n (x * a + b)], [poissonLogProb n (x * a + b) + poissonLogProb m b]⟩ := by
    have hsz : (obs n m x).size = 1 := rfl
    simp only [likelihood, hsz, List.range_one, List.map_cons, List.map_nil]
    rw [hsc.1]
    simp [obs, nth, hb]
  unfold devOf
  simp only [hlik, List.sum_cons, List.sum_nil, add_zero]
  have hb' : 0 ≤ b := hb0.elim le_of_lt fun h => h.1.ge
  rw [poissonLogProb_cost hn (by linarith [hsc.2.le]) (Or.inl (by linarith [hsc.2])), poissonLogProb_cost hm hb' (hb0.elim Or.inl fun h => Or.inr h.2)]
  ring

/-- **C138 (unknown background).**  With a background measured in each observation (`wstat`) the joint fit is not the fit of the sum: for
two observations of one channel the two statistics change by different amounts between two models. -/
theorem C138_wstat_differs : ∃ ju tu jv tv, Reports ([obs 1 0 1, obs 0 1 1].map fun d => (.wstat, d, [6 / 5])) ju ∧ Reports [(.wstat, obs 1 1 2, [6 / 5])] tu ∧
    Reports ([obs 1 0 1, obs 0 1 1].map fun d => (.wstat, d, [2 / 3])) jv ∧ Reports [(.wstat, obs 1 1 2, [2 / 3])] tv ∧ ju - jv ≠ tu - tv := by
  have hus : ∀ n m x : ℝ, 0 ≤ n → 0 ≤ m → Usable .wstat (obs n m x) := by
    intro n m x hn hm
    simp [Usable, obs, FitData.size, nth, hn, hm]
  have key : ∀ a : ℝ, 1 / 2 ≤ a → a ≤ 10 → Reports ([obs 1 0 1, obs 0 1 1].map fun d => (.wstat, d, [a])) (devOf (.wstat, obs 1 0 1, [a]) + devOf (.wstat, obs 0 1 1, [a])) ∧
      Reports [(.wstat, obs 1 1 2, [a])] (devOf (.wstat, obs 1 1 2, [a])) := by
    intro a h1 h2
    have hf := obs_fits (stat := .wstat) (by decide) h1 h2
    constructor
    · rw [reports_sum _ (by
        intro x hx
        simp only [List.map_cons, List.map_nil, List.mem_cons, List.not_mem_nil, or_false] at hx
        rcases hx with rfl | rfl
        · exact ⟨hus _ _ _ (by norm_num) (by norm_num), hf.1 _ (by simp)⟩
        · exact ⟨hus _ _ _ (by norm_num) (by norm_num), hf.1 _ (by simp)⟩)]
      simp
    · rw [reports_sum _ (by
        intro x hx
        obtain rfl := List.mem_singleton.1 hx
        exact ⟨hus _ _ _ (by norm_num) (by norm_num), hf.2⟩)]
      simp
  obtain ⟨a1, a2⟩ := key (6 / 5) (by norm_num) (by norm_num)
  obtain ⟨b1, b2⟩ := key (2 / 3) (by norm_num) (by norm_num)
  refine ⟨_, _, _, _, a1, a2, b1, b2, ?_⟩
  have s1 : Real.sqrt (676 / 25) = 26 / 5 := by rw [show (676 / 25 : ℝ) = (26 / 5) ^ 2 by norm_num, Real.sqrt_sq (by norm_num)]
  have s2 : Real.sqrt (100 / 9) = 10 / 3 := by rw [show (100 / 9 : ℝ) = (10 / 3) ^ 2 by norm_num, Real.sqrt_sq (by norm_num)]
  have w1 : wstatBackground (2 * (6 / 5)) 1 1 1 = 3 / 5 := by
    unfold wstatBackground
    norm_num [s1]
  have w2 : wstatBackground (2 * (2 / 3)) 1 1 1 = 2 / 3 := by
    unfold wstatBackground
    norm_num [s2]
  have w3 : ∀ a : ℝ, 1 / 2 < a → wstatBackground (1 * a) 1 0 1 = 0 := by
    intro a ha
    unfold wstatBackground
    norm_num
    intro h
    linarith
  have w4 : ∀ a : ℝ, wstatBackground (1 * a) 0 1 1 = 1 / 2 := by
    intro a
    unfold wstatBackground
    norm_num
  rw [obs_wstat (by norm_num) (by norm_num) (Or.inl rfl) (by norm_num) (by norm_num) (w3 (6 / 5) (by norm_num)) (Or.inr ⟨rfl, rfl⟩),
    obs_wstat (by norm_num) (by norm_num) (Or.inl rfl) (by norm_num) (by norm_num) (w3 (2 / 3) (by norm_num)) (Or.inr ⟨rfl, rfl⟩),
    obs_wstat (by norm_num) (by norm_num) (Or.inl rfl) (by norm_num) (by norm_num) (w4 (6 / 5)) (Or.inl (by norm_num)),
    obs_wstat (by norm_num) (by norm_num) (Or.inl rfl) (by norm_num) (by norm_num) (w4 (2 / 3)) (Or.inl (by norm_num)),
    obs_wstat (by norm_num) (by norm_num) (Or.inr rfl) (by norm_num) (by norm_num) w1 (Or.inl (by norm_num)),
    obs_wstat (by norm_num) (by norm_num) (Or.inr rfl) (by norm_num) (by norm_num) w2 (Or.inl (by norm_num))]
  unfold cost
  norm_num
  have l1 : Real.log (6 / 5) = Real.log 2 + Real.log 3 - Real.log 5 := by
    rw [Real.log_div (by norm_num) (by norm_num), show (6 : ℝ) = 2 * 3 by norm_num, Real.log_mul (by norm_num) (by norm_num)]
  have l2 : Real.log (3 / 5) = Real.log 3 - Real.log 5 := Real.log_div (by norm_num) (by norm_num)
  have l3 : Real.log (2 / 3) = Real.log 2 - Real.log 3 := Real.log_div (by norm_num) (by norm_num)
  have l4 : 1 / 4 < 2 * Real.log 2 - Real.log 3 := by
    have h1 := Real.log_lt_sub_one_of_pos (x := 3 / 4) (by norm_num) (by norm_num)
    rw [Real.log_div (by norm_num) (by norm_num), show (4 : ℝ) = 2 * 2 by norm_num, Real.log_mul (by norm_num) (by norm_num)] at h1
    linarith
  rw [l1, l2, l3]
  intro h
  linarith

end Elisa.Infer.Stack
