import Verif.Infer.PostIntensity
import Verif.Infer.SummaryProps
import Verif.Infer.CredibleProps
import Verif.Plot.SmoothProps

/-!
# C111: the posterior of a flux is the flux of the posterior
-/

namespace Elisa.Infer.PostIntensity

open Elisa Elisa.Infer Elisa.Infer.Summary

/-- The flux of every draw, after the values given by the user, in the unit asked for. -/
def fluxes (factor : ℝ) (setting : List (String × ℝ)) (draws : List Values) (f : Values → ℝ) : List ℝ :=
  draws.map fun v => f (override setting v) * factor

theorem std_total (xs : List ℝ) (hne : xs ≠ []) : ∃ s, fnStd [xs] = some s := by
  have hl : 0 < [xs].flatten.length := by simpa using List.length_pos_iff.2 hne
  obtain ⟨m, -, h⟩ := sdev_some (ddof := 0) hl
  exact ⟨_, h⟩

/-- The median, interval and errors of the values of a function. -/
theorem ciFn_ok (cl : ℝ) (hcl : 0 < cl) {A : Type} (f : A → ℝ) (draws : List A) (hne : draws ≠ []) :
    ∃ p m lo hi, toUnitCl id cl = .ok p ∧ 0 < p ∧ p < 1 ∧ quantile (draws.map f) 0.5 = .ok m ∧ quantile (draws.map f) (0.5 - p / 2) = .ok lo ∧
      quantile (draws.map f) (0.5 + p / 2) = .ok hi ∧ lo ≤ m ∧ m ≤ hi ∧ ciFn cl false f draws = .ok ⟨m, (lo, hi), (lo - m, hi - m)⟩ := by
  have hne' : draws.map f ≠ [] := by simpa using hne
  obtain ⟨p, m, lo, hi, h1, h2, h3, h4, h5, h6, -, -, h9, h10, -⟩ := C48_interval cl hcl (draws.map f) hne'
  obtain ⟨hp0, hp1, hp⟩ := (C48_level cl).2.2.2.1 p h1
  refine ⟨p, m, lo, hi, h1, hp0, hp1, h4, h5, h6, h9, h10, ?_⟩
  simp only [ciFn, h1, bind, Except.bind, etiInterval, hp, h4, h5, h6, pure, Except.pure]
  rfl

/-- **C111 (statistics).**  For every sample of the posterior, level, conversion factor and values given by the user, what is reported about a flux are the statistics of the reported distribution — the fluxes of
the draws, in their order and in the unit asked for: mean, standard deviation, median and equal-tailed interval, the errors being the distances of the ends of the interval from the median, not positive below
and not negative above. -/
theorem C111_statistics (cl : ℝ) (hcl : 0 < cl) (factor : ℝ) (hfac : 0 < factor) (setting : List (String × ℝ)) (draws : List Values) (hne : draws ≠ []) (f : Values → ℝ) :
    ∃ r p, leaf cl false factor setting draws f = .ok r ∧ toUnitCl id cl = .ok p ∧ r.dist = fluxes factor setting draws f ∧
      r.mean * (r.dist.length : ℝ) = r.dist.sum ∧ r.std ^ 2 * (r.dist.length : ℝ) = (r.dist.map fun x => (x - r.mean) ^ 2).sum ∧ 0 ≤ r.std ∧
      quantile r.dist 0.5 = .ok r.median ∧ quantile r.dist (0.5 - p / 2) = .ok r.interval.1 ∧ quantile r.dist (0.5 + p / 2) = .ok r.interval.2 ∧
      r.errors = (r.interval.1 - r.median, r.interval.2 - r.median) ∧ r.errors.1 ≤ 0 ∧ 0 ≤ r.errors.2 := by
  obtain ⟨g, hg⟩ : ∃ g : Values → ℝ, g = fun v => f (override setting v) := ⟨_, rfl⟩
  obtain ⟨p, m, lo, hi, h1, hp0, hp1, h4, h5, h6, h7, h8, h9⟩ := ciFn_ok cl hcl g draws hne
  have hne' : draws.map g ≠ [] := by simpa using hne
  have hfl : [draws.map g].flatten = draws.map g := by simp
  have hlen : 0 < (draws.map g).length := List.length_pos_iff.2 hne'
  have hlenR : (0 : ℝ) < ((draws.map g).length : ℝ) := by exact_mod_cast hlen
  obtain ⟨mu, hmu, hs⟩ := sdev_some (ddof := 0) (chains := [draws.map g]) (by rw [hfl]; exact hlen)
  have hmu' : mu * ((draws.map g).length : ℝ) = (draws.map g).sum := by
    have := mean_some (chains := [draws.map g]) (by rw [hfl]; exact hne')
    rw [this, hfl, Option.some.injEq] at hmu
    rw [← hmu]
    field_simp
  rw [hfl, Nat.sub_zero] at hs
  obtain ⟨sd, hsd⟩ : ∃ sd, sd = Real.sqrt (((draws.map g).map fun x => (x - mu) * (x - mu)).sum / ((draws.map g).length : ℝ)) := ⟨_, rfl⟩
  rw [← hsd] at hs
  have hsd2 : sd ^ 2 * ((draws.map g).length : ℝ) = ((draws.map g).map fun x => (x - mu) * (x - mu)).sum := by
    rw [hsd, Real.sq_sqrt (div_nonneg (sq_sum_nonneg _ _) hlenR.le)]
    field_simp
  have hq : ∀ q x, quantile (draws.map g) q = .ok x → quantile ((draws.map g).map (· * factor)) q = .ok (x * factor) := by
    intro q x hx
    have := quantile_affine (draws.map g) factor 0 hfac q
    rw [hx] at this
    simp only [add_zero, Except.map, mul_comm factor] at this
    exact this
  refine ⟨⟨mu * factor, sd * factor, m * factor, (lo * factor, hi * factor), ((lo - m) * factor, (hi - m) * factor), (draws.map g).map (· * factor)⟩, p, ?_, h1, ?_, ?_, ?_, ?_, hq _ _ h4, hq _ _ h5, hq _ _ h6, ?_, ?_, ?_⟩
  · have hs' : fnStd [draws.map g] = some sd := hs
    rw [hg] at h9 hmu hs'
    simp only [leaf, h9, hmu, hs', orRaise, bind, Except.bind, pure, Except.pure, hg]
  · simp [fluxes, hg]
  · show mu * factor * (((draws.map g).map (· * factor)).length : ℝ) = ((draws.map g).map (· * factor)).sum
    rw [List.length_map, List.sum_map_mul_right, List.map_id', ← hmu']
    ring
  · show (sd * factor) ^ 2 * (((draws.map g).map (· * factor)).length : ℝ) = (((draws.map g).map (· * factor)).map fun x => (x - mu * factor) ^ 2).sum
    rw [List.length_map]
    have : (((draws.map g).map (· * factor)).map fun x => (x - mu * factor) ^ 2) = (draws.map g).map fun x => (x - mu) * (x - mu) * factor ^ 2 := by
      rw [List.map_map]
      apply List.map_congr_left
      intro x _
      simp only [Function.comp_apply]
      ring
    rw [this, List.sum_map_mul_right, ← hsd2]
    ring
  · show 0 ≤ sd * factor
    rw [hsd]
    exact mul_nonneg (Real.sqrt_nonneg _) hfac.le
  · show ((lo - m) * factor, (hi - m) * factor) = _
    rw [sub_mul, sub_mul]
  · show (lo - m) * factor ≤ 0
    nlinarith
  · show 0 ≤ (hi - m) * factor
    nlinarith

example := C111_statistics 0.9 (by norm_num) 2 (by norm_num) [("z", 0)] [fun _ => 1, fun _ => 3] (by simp) (fun v => v "K" * v "z")

/-- **C111 (values given by the user).**  If the user gives values for all parameters the flux depends on, the posterior of the flux is a single value: mean, median and both ends of the interval are that value and there is no spread. -/
theorem C111_fixed (cl : ℝ) (hcl : 0 < cl) (factor : ℝ) (hfac : 0 < factor) (setting : List (String × ℝ)) (draws : List Values) (hne : draws ≠ []) (f : Values → ℝ)
    (hf : ∀ v w : Values, (∀ k ∈ setting.map Prod.fst, v k = w k) → f v = f w) (v₀ : Values) :
    ∃ r, leaf cl false factor setting draws f = .ok r ∧ r.mean = f (override setting v₀) * factor ∧ r.std = 0 ∧ r.median = r.mean ∧ r.interval = (r.mean, r.mean) ∧ r.errors = (0, 0) := by
  obtain ⟨r, p, h1, h2, h3, h4, h5, h6, h7, h8, h9, h10, h11, h12⟩ := C111_statistics cl hcl factor hfac setting draws hne f
  have hsame : ∀ v, f (override setting v) = f (override setting v₀) := by
    intro v
    apply hf
    intro k hk
    obtain ⟨⟨k', x⟩, hkx, rfl⟩ := List.mem_map.1 hk
    have : (setting.lookup k').isSome := by
      rw [List.lookup_isSome_iff]
      exact ⟨(k', x), hkx, by simp⟩
    obtain ⟨y, hy⟩ := Option.isSome_iff_exists.1 this
    simp [override, hy]
  have hd : r.dist = List.replicate draws.length (f (override setting v₀) * factor) := by
    rw [h3, fluxes]
    simp only [hsame]
    exact List.map_const'
  have hlen : (0 : ℝ) < (r.dist.length : ℝ) := by
    rw [hd, List.length_replicate]
    exact_mod_cast List.length_pos_iff.2 hne
  have hmean : r.mean = f (override setting v₀) * factor := by
    rw [hd, List.sum_replicate, List.length_replicate, nsmul_eq_mul, mul_comm] at h4
    rw [hd, List.length_replicate] at hlen
    exact mul_left_cancel₀ hlen.ne' h4
  have hdne : r.dist ≠ [] := by rw [← List.length_pos_iff]; exact_mod_cast hlen
  have hQ : ∀ q x, 0 ≤ q → q ≤ 1 → quantile r.dist q = .ok x → x = r.mean := by
    intro q x q0 q1 hx
    obtain ⟨Q, e1, e2, e3, e4, e5, -⟩ := C48_quantile r.dist hdne
    have hc : ∀ y ∈ r.dist, y = r.mean := by rw [hd, hmean]; exact fun y hy => List.eq_of_mem_replicate hy
    rw [e1 q q0 q1] at hx
    have hx' : Q q = x := by simpa using hx
    have a := e2 0 q le_rfl q0 q1
    have b := e2 q 1 q0 q1 le_rfl
    rw [hc _ e4] at a
    rw [hc _ e5] at b
    linarith
  obtain ⟨hp0, hp1, -⟩ := (C48_level cl).2.2.2.1 p h2
  have m1 := hQ _ _ (by norm_num) (by norm_num) h7
  have m2 := hQ _ _ (by linarith) (by linarith) h8
  have m3 := hQ _ _ (by linarith) (by linarith) h9
  refine ⟨r, h1, hmean, ?_, m1, by rw [← m2]; ext <;> simp [m2, m3], by rw [h10, m1, m2, m3]; simp⟩
  have : (r.dist.map fun x => (x - r.mean) ^ 2).sum = 0 := by
    rw [hd, hmean]
    simp
  rw [this] at h5
  rcases mul_eq_zero.1 h5 with h | h
  · exact pow_eq_zero_iff (two_ne_zero) |>.1 h
  · exact absurd h hlen.ne'

example := C111_fixed 0.9 (by norm_num) 2 (by norm_num) [("K", 2)] [fun _ => 1, fun _ => 3] (by simp) (fun v => v "K") (fun v w h => h "K" (by simp)) (fun _ => 0)

/-- **C111 (misspelt parameters).**  A value for a name the model does not know has no effect at all and is not refused. -/
theorem C111_unknown (cl : ℝ) (useHdi : Bool) (factor : ℝ) (setting : List (String × ℝ)) (draws : List Values) (f : Values → ℝ) (known : List String)
    (hf : ∀ v w : Values, (∀ k ∈ known, v k = w k) → f v = f w) (hs : ∀ k ∈ known, setting.lookup k = none) :
    leaf cl useHdi factor setting draws f = leaf cl useHdi factor [] draws f := by
  have : ∀ v, f (override setting v) = f (override [] v) := fun v => hf _ _ fun k hk => by simp [override, hs k hk]
  simp only [leaf, this]

example := C111_unknown 0.9 false 2 [("typo", 2)] [fun _ => 1, fun _ => 3] (fun v => v "K") ["K"] (fun v w h => h "K" (by simp)) (by simp)

theorem totals_ok (cl : ℝ) (hcl : 0 < cl) (factor : ℝ) (hfac : 0 < factor) (setting : List (String × ℝ)) (draws : List Values) (hne : draws ≠ []) (models : List (String × (Values → ℝ))) :
    ∃ rs, totals cl false factor setting draws models = .ok rs ∧ rs.length = models.length ∧
      ∀ (i : Nat) m, models[i]? = some m → ∃ r, rs[i]? = some (m.1, r) ∧ leaf cl false factor setting draws m.2 = .ok r := by
  unfold totals
  induction models with
  | nil => exact ⟨[], rfl, rfl, by simp⟩
  | cons m ms ih =>
    obtain ⟨rs, h1, h2, h3⟩ := ih
    obtain ⟨r, p, hr, -⟩ := C111_statistics cl hcl factor hfac setting draws hne m.2
    refine ⟨(m.1, r) :: rs, ?_, by simp [h2], ?_⟩
    · rw [List.mapM_cons, h1]
      simp only [hr, bind, Except.bind, pure, Except.pure]
    · intro i m' hm'
      cases i with
      | zero =>
        simp only [List.getElem?_cons_zero, Option.some.injEq] at hm'
        subst hm'
        exact ⟨r, rfl, hr⟩
      | succ i => exact h3 i m' (by simpa using hm')

/-- **C111 (components), part that holds.**  Asking for the components of a model raises when it has fewer than two; otherwise the mean flux of a dataset is the sum of the mean fluxes of its components, and so is the flux of
every single draw.  Missing: medians and intervals, see `C111_components_refuted`. -/
theorem C111_components_partial (cl : ℝ) (hcl : 0 < cl) (factor : ℝ) (hfac : 0 < factor) (setting : List (String × ℝ)) (draws : List Values) (hne : draws ≠ [])
    (cs : List (String × (Values → ℝ))) (total : Values → ℝ) (htot : ∀ v, total v = (cs.map fun c => c.2 v).sum) :
    (cs.length ≤ 1 → modelComps cl false factor setting draws cs = .error .runtimeError) ∧
    (2 ≤ cs.length → ∃ rs r, modelComps cl false factor setting draws cs = .ok rs ∧ leaf cl false factor setting draws total = .ok r ∧ rs.map Prod.fst = cs.map Prod.fst ∧
      r.mean = (rs.map fun x => x.2.mean).sum ∧ ∀ i < draws.length, r.dist.getD i 0 = (rs.map fun x => x.2.dist.getD i 0).sum) := by
  constructor
  · intro h; exact if_pos h
  intro h2
  obtain ⟨rs, k1, k2, k3⟩ := totals_ok cl hcl factor hfac setting draws hne cs
  obtain ⟨r, p, hr, -, hd, hm, -⟩ := C111_statistics cl hcl factor hfac setting draws hne total
  have hall : List.Forall₂ (fun x c => x.1 = c.1 ∧ leaf cl false factor setting draws c.2 = .ok x.2) rs cs := by
    rw [List.forall₂_iff_get]
    refine ⟨k2, fun i h1 h2' => ?_⟩
    obtain ⟨x, hx, hl⟩ := k3 i cs[i] (List.getElem?_eq_getElem h2')
    have hx' : rs[i] = (cs[i].1, x) := by
      have := List.getElem?_eq_getElem h1
      rw [this] at hx
      exact Option.some.inj hx
    simp only [List.get_eq_getElem, hx']
    exact ⟨trivial, hl⟩
  have hn : (0 : ℝ) < (draws.length : ℝ) := by exact_mod_cast List.length_pos_iff.2 hne
  have hmeans : ∀ (rs : List (String × Report)) (cs : List (String × (Values → ℝ))), List.Forall₂ (fun x c => x.1 = c.1 ∧ leaf cl false factor setting draws c.2 = .ok x.2) rs cs →
      rs.map Prod.fst = cs.map Prod.fst ∧ (rs.map fun x => x.2.mean).sum * (draws.length : ℝ) = (draws.map fun v => (cs.map fun c => c.2 (override setting v)).sum * factor).sum ∧
      ∀ i v, draws[i]? = some v → (rs.map fun x => x.2.dist.getD i 0).sum = (cs.map fun c => c.2 (override setting v)).sum * factor := by
    intro rs cs h
    induction h with
    | nil => simp
    | @cons x c rs cs hx _ ih =>
      obtain ⟨i1, i2, i3⟩ := ih
      obtain ⟨r', p', g1, -, g3, g4, -⟩ := C111_statistics cl hcl factor hfac setting draws hne c.2
      have e : r' = x.2 := by
        have := g1.symm.trans hx.2
        simpa using this
      subst e
      refine ⟨by simp [i1, hx.1], ?_, ?_⟩
      · have hl : x.2.dist.length = draws.length := by rw [g3]; simp [fluxes]
        rw [hl] at g4
        rw [List.map_cons, List.sum_cons, add_mul, i2, g4, g3, fluxes, ← sum_map_add]
        congr 1
        apply List.map_congr_left
        intro v _
        simp only [List.map_cons, List.sum_cons]
        ring
      · intro i v hv
        rw [List.map_cons, List.sum_cons, i3 i v hv, g3]
        simp only [fluxes, List.getD_eq_getElem?_getD, List.getElem?_map, hv, Option.map_some, Option.getD_some, List.map_cons, List.sum_cons]
        ring
  obtain ⟨q1, q2, q3⟩ := hmeans rs cs hall
  have hdl : r.dist.length = draws.length := by rw [hd]; simp [fluxes]
  refine ⟨rs, r, ?_, hr, q1, ?_, ?_⟩
  · show (if cs.length ≤ 1 then _ else _) = _
    rw [if_neg (by omega)]
    exact k1
  · rw [hdl, hd] at hm
    apply mul_right_cancel₀ hn.ne'
    rw [hm, q2, fluxes]
    simp only [htot]
  · intro i hi
    have hv : draws[i]? = some draws[i] := List.getElem?_eq_getElem hi
    rw [q3 i _ hv, hd]
    simp only [fluxes, List.getD_eq_getElem?_getD, List.getElem?_map, hv, Option.map_some, Option.getD_some, htot]

example := C111_components_partial 0.9 (by norm_num) 2 (by norm_num) [] [fun _ => 1, fun _ => 3] (by simp) [("a", fun v => v "K"), ("b", fun v => v "L")]
  (fun v => v "K" + v "L") (by simp)

/-- A median of three numbers. -/
theorem median_three (a b c : ℝ) (h1 : a ≤ b) (h2 : b ≤ c) (xs : List ℝ) (hp : xs.Perm [a, b, c]) : quantile xs 0.5 = .ok b := by
  rw [quantile_perm hp, quantile]
  have hs : [a, b, c].insertionSort (· ≤ ·) = [a, b, c] := by
    apply List.Pairwise.insertionSort_eq
    simp only [List.pairwise_cons, List.mem_cons, List.not_mem_nil, or_false]
    exact ⟨by rintro x (rfl | rfl); exacts [h1, h1.trans h2], by rintro x rfl; exact h2, by simp, List.Pairwise.nil⟩
  rw [hs]
  have hf : ⌊(0.5 : ℝ) * (([a, b, c].length : ℝ) - 1)⌋₊ = 1 := by
    rw [Nat.floor_eq_iff (by norm_num)]
    norm_num
  rw [if_neg (by norm_num), if_neg (by simp)]
  simp only [hf]
  norm_num

/-- **C111 (medians of components, refuted).**  The median of the flux of a dataset need not be the sum of the medians of its components, at any level: reported medians and intervals of components cannot be added. -/
theorem C111_components_refuted (cl : ℝ) (hcl : 0 < cl) : ∃ (draws : List Values) (cs : List (String × (Values → ℝ))) (total : Values → ℝ) (rs : List (String × Report)) (r : Report),
    (∀ v, total v = (cs.map fun c => c.2 v).sum) ∧ modelComps cl false 1 [] draws cs = .ok rs ∧ leaf cl false 1 [] draws total = .ok r ∧
      (rs.map fun x => x.2.median).sum ≠ r.median := by
  let mk (x y : ℝ) : Values := fun k => if k = "x" then x else y
  let draws : List Values := [mk 0 0, mk 1 0, mk 0 1]
  let cs : List (String × (Values → ℝ)) := [("a", fun v => v "x"), ("b", fun v => v "y")]
  have hne : draws ≠ [] := by simp [draws]
  have hov : ∀ v : Values, override [] v = v := fun v => by funext k; simp [override]
  obtain ⟨rs, k1, k2, k3⟩ := totals_ok cl hcl 1 one_pos [] draws hne cs
  obtain ⟨r, p, h1, -, h3, -, -, -, h7, -⟩ := C111_statistics cl hcl 1 one_pos [] draws hne (fun v => v "x" + v "y")
  obtain ⟨ra, ea, la⟩ := k3 0 _ rfl
  obtain ⟨rb, eb, lb⟩ := k3 1 _ rfl
  obtain ⟨r1, p1, g1, -, g3, -, -, -, g7, -⟩ := C111_statistics cl hcl 1 one_pos [] draws hne (fun v => v "x")
  obtain ⟨r2, p2, f1, -, f3, -, -, -, f7, -⟩ := C111_statistics cl hcl 1 one_pos [] draws hne (fun v => v "y")
  have e1 : ra = r1 := by have := la.symm.trans g1; simpa using this
  have e2 : rb = r2 := by have := lb.symm.trans f1; simpa using this
  have d0 : r.dist = [0, 1, 1] := by rw [h3]; simp [fluxes, draws, hov, mk]
  have d1 : r1.dist = [0, 1, 0] := by rw [g3]; simp [fluxes, draws, hov, mk]
  have d2 : r2.dist = [0, 0, 1] := by rw [f3]; simp [fluxes, draws, hov, mk]
  have m0 : r.median = 1 := by
    rw [d0, median_three 0 1 1 (by norm_num) le_rfl _ (List.Perm.refl _)] at h7
    simpa using h7.symm
  have m1 : r1.median = 0 := by
    rw [d1, median_three 0 0 1 le_rfl (by norm_num) _ ((List.Perm.swap 0 1 []).cons 0)] at g7
    simpa using g7.symm
  have m2 : r2.median = 0 := by
    rw [d2, median_three 0 0 1 le_rfl (by norm_num) _ (List.Perm.refl _)] at f7
    simpa using f7.symm
  have hrs : rs = [("a", ra), ("b", rb)] := by
    have hl : rs.length = 2 := k2
    match rs, hl, ea, eb with
    | [x, y], _, ea, eb =>
      simp only [List.getElem?_cons_zero, Option.some.injEq, List.getElem?_cons_succ] at ea eb
      rw [ea, eb]
  refine ⟨draws, cs, fun v => v "x" + v "y", rs, r, by simp [cs], ?_, h1, ?_⟩
  · show (if cs.length ≤ 1 then _ else _) = _
    rw [if_neg (by simp [cs])]
    exact k1
  · rw [hrs, m0]
    simp [e1, e2, m1, m2]

/-- **C111 (all datasets).**  With `comps=True` the fluxes of a fit are defined exactly if the model of every dataset has at least two additive components: one simple model is enough to make the whole request fail. -/
theorem C111_all (cl : ℝ) (hcl : 0 < cl) (factor : ℝ) (hfac : 0 < factor) (setting : List (String × ℝ)) (draws : List Values) (hne : draws ≠ [])
    (models : List (String × List (String × (Values → ℝ)))) :
    ((∃ rs, components cl false factor setting draws models = .ok rs) ↔ ∀ m ∈ models, 2 ≤ m.2.length) ∧
    ∀ e, components cl false factor setting draws models = .error e → e = .runtimeError := by
  induction models with
  | nil => exact ⟨⟨fun _ => by simp, fun _ => ⟨[], rfl⟩⟩, fun e h => by cases h⟩
  | cons m ms ih =>
    have hcons : components cl false factor setting draws (m :: ms) = (do
        let r ← modelComps cl false factor setting draws m.2
        let rs ← components cl false factor setting draws ms
        return (m.1, r) :: rs) := by
      simp only [components, List.mapM_cons, bind, Except.bind, pure, Except.pure]
      cases modelComps cl false factor setting draws m.2 <;> rfl
    rw [hcons]
    by_cases h : m.2.length ≤ 1
    · have hm : modelComps cl false factor setting draws m.2 = .error .runtimeError := if_pos h
      simp only [hm, bind, Except.bind]
      refine ⟨⟨?_, fun h' => ?_⟩, fun e h' => by cases h'; rfl⟩
      · rintro ⟨rs, h'⟩
        cases h'
      · have := h' m (by simp)
        omega
    · obtain ⟨rs, k1, -, -⟩ := totals_ok cl hcl factor hfac setting draws hne m.2
      have hm : modelComps cl false factor setting draws m.2 = .ok rs := by
        show (if m.2.length ≤ 1 then _ else _) = _
        rw [if_neg h]; exact k1
      simp only [hm, bind, Except.bind, pure, Except.pure]
      cases hr : components cl false factor setting draws ms with
      | error e =>
        rw [hr] at ih
        refine ⟨⟨?_, fun h' => ?_⟩, fun e' h' => ?_⟩
        · rintro ⟨rs, h'⟩
          cases h'
        · obtain ⟨x, hx⟩ := ih.1.2 fun m' hm' => h' m' (by simp [hm'])
          cases hx
        · have : e = e' := by simpa using h'
          exact this ▸ ih.2 e rfl
      | ok v =>
        rw [hr] at ih
        refine ⟨⟨fun _ m' hm' => ?_, fun _ => ⟨_, rfl⟩⟩, fun e h' => by cases h'⟩
        rcases List.mem_cons.1 hm' with rfl | hm'
        · omega
        · exact ih.1.1 ⟨v, rfl⟩ m' hm'

example : ∃ (draws : List Values) (f : Values → ℝ), draws ≠ [] ∧ (∀ v w : Values, (∀ k ∈ [("K", (2 : ℝ))].map Prod.fst, v k = w k) → f v = f w) ∧ f (fun _ => 1) ≠ f (fun _ => 2) :=
  ⟨[fun _ => 1, fun _ => 3], fun v => v "K", by simp, fun v w h => h "K" (by simp), by norm_num⟩

end Elisa.Infer.PostIntensity
