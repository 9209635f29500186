import Verif.Plot.LooResidual
import Verif.Plot.ResidualProps
import Verif.Infer.LooPitProps

/-!
# C98: residuals of a posterior
-/

namespace Elisa.Plot

open Elisa Elisa.Infer Elisa.Grouping

/-- The leave-one-out mean in channel `j`: every draw counts with its importance weight. -/
noncomputable def looMean (draws : List Draw) (j : Nat) (f : Draw → ℝ) : ℝ := (draws.map fun s => Real.exp (nth s.lw j) * f s).sum

/-- The weights of every channel add up to one. -/
def Normalised (d : FitData) (draws : List Draw) : Prop := ∀ j < d.size, looMean draws j (fun _ => 1) = 1

theorem looOf_eq (draws : List Draw) (j : Nat) (f : Draw → ℝ) : looOf draws j f = looMean draws j f := by
  unfold looOf looMean
  rw [C83_expectation, List.map_map]
  rfl

theorem looMean_congr {draws : List Draw} {j : Nat} {f g : Draw → ℝ} (h : ∀ s ∈ draws, f s = g s) : looMean draws j f = looMean draws j g := by
  unfold looMean
  rw [List.map_congr_left fun s hs => by rw [h s hs]]

theorem looMean_const (draws : List Draw) (j : Nat) (c : ℝ) : looMean draws j (fun _ => c) = c * looMean draws j (fun _ => 1) := by
  unfold looMean
  induction draws with
  | nil => simp
  | cons s l ih => simp only [List.map_cons, List.sum_cons, ih]; ring

theorem looMean_mono {draws : List Draw} {j : Nat} {f g : Draw → ℝ} (h : ∀ s ∈ draws, f s ≤ g s) : looMean draws j f ≤ looMean draws j g := by
  unfold looMean
  apply List.sum_le_sum
  intro s hs
  exact mul_le_mul_of_nonneg_left (h s hs) (Real.exp_pos _).le

theorem looMean_add (draws : List Draw) (j : Nat) (f g : Draw → ℝ) : looMean draws j (fun s => f s + g s) = looMean draws j f + looMean draws j g := by
  unfold looMean
  induction draws with
  | nil => simp
  | cons s l ih => simp only [List.map_cons, List.sum_cons, ih]; ring

theorem looMean_mul (draws : List Draw) (j : Nat) (c : ℝ) (f : Draw → ℝ) : looMean draws j (fun s => c * f s) = c * looMean draws j f := by
  unfold looMean
  induction draws with
  | nil => simp
  | cons s l ih => simp only [List.map_cons, List.sum_cons, ih]; ring

theorem looMean_nonneg {draws : List Draw} {j : Nat} {f : Draw → ℝ} (h : ∀ s ∈ draws, 0 ≤ f s) : 0 ≤ looMean draws j f := by
  have := looMean_mono (draws := draws) (j := j) (f := fun _ => 0) (g := f) h
  rwa [looMean_const, zero_mul] at this

theorem looMean_zero {draws : List Draw} {j : Nat} {f : Draw → ℝ} (h : ∀ s ∈ draws, 0 ≤ f s) (h0 : looMean draws j f = 0) : ∀ s ∈ draws, f s = 0 := by
  induction draws with
  | nil => simp
  | cons a l ih =>
    have hl := looMean_nonneg (draws := l) (j := j) (f := f) fun s hs => h s (by simp [hs])
    have ha := h a (by simp)
    have hp := mul_nonneg (Real.exp_pos (nth a.lw j)).le ha
    have hc : Real.exp (nth a.lw j) * f a + looMean l j f = 0 := by
      unfold looMean at h0 ⊢
      rwa [List.map_cons, List.sum_cons] at h0
    intro s hs
    rcases List.mem_cons.1 hs with rfl | hs
    · have : Real.exp (nth s.lw j) * f s = 0 := by linarith
      exact (mul_eq_zero.1 this).resolve_left (Real.exp_pos _).ne'
    · exact ih (fun s hs => h s (by simp [hs])) (by linarith) s hs

/-- the square of the mean is at most the mean of the squares -/
theorem looMean_sq {draws : List Draw} {j : Nat} (f : Draw → ℝ) (h1 : looMean draws j (fun _ => 1) = 1) :
    looMean draws j f ^ 2 ≤ looMean draws j fun s => f s ^ 2 := by
  obtain ⟨m, hm⟩ : ∃ m, m = looMean draws j f := ⟨_, rfl⟩
  have h := looMean_nonneg (draws := draws) (j := j) (f := fun s => (f s - m) ^ 2) fun s _ => sq_nonneg _
  have e : looMean draws j (fun s => (f s - m) ^ 2) = looMean draws j (fun s => f s ^ 2) + (-2 * m) * looMean draws j f + m ^ 2 := by
    have : ∀ s, (f s - m) ^ 2 = f s ^ 2 + ((-2 * m) * f s + m ^ 2) := fun s => by ring
    simp only [this]
    rw [looMean_add, looMean_add, looMean_mul, looMean_const, h1]
    ring
  rw [e, ← hm] at h
  rw [← hm]
  nlinarith

theorem mapM_likelihood {stat : Stat} {d : FitData} {draws : List Draw} {F : Draw → Sites} (h : ∀ s ∈ draws, likelihood stat d s.flux = .ok (F s)) :
    (draws.mapM fun s => likelihood stat d s.flux) = .ok (draws.map F) := by
  induction draws with
  | nil => rfl
  | cons a l ih =>
    rw [List.mapM_cons, h a (by simp), ih fun s hs => h s (by simp [hs])]
    rfl

theorem zip_map {A B : Type} (draws : List A) (F : A → B) {C : Type} (k : A → B → C) : List.zipWith k draws (draws.map F) = draws.map fun s => k s (F s) := by
  induction draws with
  | nil => rfl
  | cons a l ih => simp [ih]

theorem signOf_cases (c : Prop) [Decidable c] : (c ∧ signOf c = 1) ∨ (¬ c ∧ signOf c = -1) := by
  unfold signOf
  by_cases h : c
  · exact .inl ⟨h, if_pos h⟩
  · exact .inr ⟨h, if_neg h⟩

/-- the sign compares the net counts with the leave-one-out mean of the source counts -/
theorem signLoo_iff {d : FitData} {width : List ℝ} {draws : List Draw} {j : Nat} {S : Draw → ℝ} (hexp : 0 < d.exposure) (hw : 0 < nth width j)
    (hr : ∀ s ∈ draws, d.sourceRate s.flux j * d.exposure = S s) :
    (ceData d width j ≥ looOf draws j fun s => modelSpectrum d width s.flux j) ↔ looMean draws j S ≤ nth d.netCounts j := by
  have e : (looOf draws j fun s => modelSpectrum d width s.flux j) = 1 / (nth width j * d.exposure) * looMean draws j S := by
    rw [looOf_eq, ← looMean_mul]
    apply looMean_congr
    intro s hs
    unfold modelSpectrum
    rw [← hr s hs]
    field_simp
  rw [e, ceData, ge_iff_le, mul_comm (1 / _)]
  exact mul_le_mul_iff_left₀ (by positivity)

/-- **C98** (deviance residuals).  For every statistic, usable data and posterior whose draws lie in the numerical range, with source counts `S s`: the residual of each channel exists,
its square is the leave-one-out mean of the likelihood-ratio deviances of the draws, its sign is that of the net counts minus the leave-one-out mean of the source counts, and
it vanishes only if every draw reproduces the data of this channel. -/
theorem C98_deviance (stat : Stat) (d : FitData) (width : List ℝ) (draws : List Draw) (S : Draw → Nat → ℝ) (hu : Usable stat d)
    (hr : ∀ s ∈ draws, InRange stat d s.flux (S s)) (hexp : 0 < d.exposure) (hw : ∀ j < d.size, 0 < nth width j) :
    ∃ r, devResLoo stat d width draws = .ok r ∧ r.length = d.size ∧ ∀ j < d.size, ∃ D : Draw → ℝ,
      (∀ s ∈ draws, 0 ≤ D s ∧ IsDeviance stat d j (S s j) (D s)) ∧ nth r j ^ 2 = looMean draws j D ∧
      (0 < nth r j → looMean draws j (fun s => S s j) ≤ nth d.netCounts j) ∧ (nth r j < 0 → nth d.netCounts j < looMean draws j fun s => S s j) ∧
      (nth r j = 0 → ∀ s ∈ draws, D s = 0) := by
  have hsites : ∀ s : Draw, ∃ t, s ∈ draws → likelihood stat d s.flux = .ok t ∧ ∀ j < d.size, 0 ≤ devAt t j ∧ IsDeviance stat d j (S s j) (devAt t j) := by
    intro s
    by_cases hs : s ∈ draws
    · obtain ⟨t, h1, -, h3⟩ := C25_channel_deviance stat d s.flux (S s) hu (hr s hs)
      refine ⟨t, fun _ => ⟨h1, fun j hj => ?_⟩⟩
      obtain ⟨D, e, h0, hD⟩ := h3 j hj
      unfold devAt
      rw [e]; exact ⟨h0, hD⟩
    · exact ⟨⟨[], [], none, [], []⟩, fun h => absurd h hs⟩
  choose F hF using hsites
  refine ⟨(List.range d.size).map fun j => signLoo d width draws j *
    Real.sqrt (looExpectation (List.zipWith (fun (s : Draw) (t : Sites) => (nth s.lw j, devAt t j)) draws (draws.map F))), ?_, ?_, ?_⟩
  · unfold devResLoo
    rw [mapM_likelihood fun s hs => (hF s hs).1]
    rfl
  · simp
  · intro j hj
    have hpos : ∀ s ∈ draws, 0 ≤ devAt (F s) j := fun s hs => ((hF s hs).2 j hj).1
    have hm0 := looMean_nonneg (j := j) hpos
    have hle := signLoo_iff (j := j) (S := fun s => S s j) hexp (hw j hj) fun s hs => ((hr s hs).rate j hj).1
    refine ⟨fun s => devAt (F s) j, fun s hs => (hF s hs).2 j hj, ?_⟩
    rw [nth_map hj, zip_map draws F fun s t => (nth s.lw j, devAt t j), C83_expectation, List.map_map]
    have e : (List.map ((fun d : ℝ × ℝ => Real.exp d.1 * d.2) ∘ fun s : Draw => (nth s.lw j, devAt (F s) j)) draws).sum = looMean draws j fun s => devAt (F s) j := rfl
    rw [e]
    have hsq := Real.sqrt_nonneg (looMean draws j fun s => devAt (F s) j)
    rcases signOf_cases (ceData d width j ≥ looOf draws j fun s => modelSpectrum d width s.flux j) with ⟨hc, he⟩ | ⟨hc, he⟩
    · unfold signLoo
      rw [he]
      refine ⟨by rw [one_mul, Real.sq_sqrt hm0], fun _ => hle.1 hc, fun h => by linarith, fun h => ?_⟩
      rw [one_mul, Real.sqrt_eq_zero hm0] at h
      exact looMean_zero hpos h
    · unfold signLoo
      rw [he]
      refine ⟨by rw [mul_pow, Real.sq_sqrt hm0]; ring, fun h => by linarith, fun _ => ?_, fun h => ?_⟩
      · exact not_le.1 fun h => hc (hle.2 h)
      · have h' : Real.sqrt (looMean draws j fun s => devAt (F s) j) = 0 := by linarith
        rw [Real.sqrt_eq_zero hm0] at h'
        exact looMean_zero hpos h'

theorem pearsonResiduals_eq (stat : Stat) (d : FitData) (width u : List ℝ) :
    pearsonResiduals stat d width u = (likelihood stat d u).map fun t => (List.range d.size).map fun j => pearsonDraw stat d t (signMle d width u j) j := by
  unfold pearsonResiduals
  cases likelihood stat d u <;> rfl

/-- the sign does not matter for the absolute value -/
theorem pearsonDraw_sign (stat : Stat) (d : FitData) (t : Sites) (j : Nat) {ε η : ℝ} (he : |ε| = 1) (hη : |η| = 1) :
    (pearsonDraw stat d t ε j).map (|·|) = (pearsonDraw stat d t η j).map (|·|) := by
  unfold pearsonDraw
  dsimp only
  by_cases hb : stat.withBack = true
  · simp only [if_pos hb]
    generalize pearson (nth (if stat.specNormal then d.netCounts else d.specCounts) j) _ _ = r
    generalize pearson (nth ((d.back.map (·.counts)).getD []) j) _ _ = rb
    cases r <;> cases rb <;> simp [pearsonPair, abs_mul, he, hη]
  · simp only [if_neg hb]

theorem signLoo_abs (d : FitData) (width : List ℝ) (draws : List Draw) (j : Nat) : |signLoo d width draws j| = 1 := by
  unfold signLoo signOf
  split <;> simp

theorem signMle_abs (d : FitData) (width u : List ℝ) (j : Nat) : |signMle d width u j| = 1 := by
  unfold signMle signOf
  split <;> simp

theorem mapM_option {A B : Type} {l : List A} {f : A → Option B} {g : A → B} (h : ∀ a ∈ l, f a = some (g a)) : l.mapM f = some (l.map g) := by
  induction l with
  | nil => rfl
  | cons a l ih =>
    rw [List.mapM_cons, h a (by simp), ih fun x hx => h x (by simp [hx])]
    rfl

/-- **C98** (Pearson residuals; partial).  The residual of each channel exists (for `wstat`: if there are off counts in every channel, see C53), its size is the leave-one-out mean of the
sizes of the Pearson residuals of the draws — hence at most their root mean square — and its sign is that of the net counts minus the leave-one-out mean of the source
counts. -/
theorem C98_pearson_partial (stat : Stat) (d : FitData) (width : List ℝ) (draws : List Draw) (S : Draw → Nat → ℝ) (hu : Usable stat d)
    (hr : ∀ s ∈ draws, InRange stat d s.flux (S s)) (hn : Normalised d draws) (hexp : 0 < d.exposure) (hw : ∀ j < d.size, 0 < nth width j)
    (hoff : stat = .wstat → ∀ b, d.back = some b → ∀ j < d.size, 0 < nth b.counts j) :
    ∃ r, pearsonResLoo stat d width draws = .ok r ∧ r.length = d.size ∧ ∀ j < d.size, ∃ (x : ℝ) (R : Draw → ℝ),
      r[j]? = some (some x) ∧ (∀ s ∈ draws, IsPearson stat d j (S s j) (R s)) ∧ |x| = looMean draws j (fun s => |R s|) ∧
      x ^ 2 ≤ looMean draws j (fun s => R s ^ 2) ∧
      (0 < x → looMean draws j (fun s => S s j) ≤ nth d.netCounts j) ∧ (x < 0 → nth d.netCounts j < looMean draws j fun s => S s j) := by
  have hsites : ∀ s : Draw, ∃ t, s ∈ draws → likelihood stat d s.flux = .ok t ∧
      ∀ j < d.size, ∃ x, pearsonDraw stat d t (signMle d width s.flux j) j = some x ∧ IsPearson stat d j (S s j) x := by
    intro s
    by_cases hs : s ∈ draws
    · obtain ⟨t, h1, -, -⟩ := C25_channel_deviance stat d s.flux (S s) hu (hr s hs)
      obtain ⟨r, k1, k2, k3⟩ := C53_pearson_partial stat d width s.flux (S s) hu (hr s hs) hexp hw hoff
      refine ⟨t, fun _ => ⟨h1, fun j hj => ?_⟩⟩
      obtain ⟨x, hx, hp⟩ := k3 j hj
      rw [pearsonResiduals_eq, h1] at k1
      have k1' := Except.ok.inj k1
      rw [← k1', getElem_range_map hj] at hx
      exact ⟨x, Option.some.inj hx, hp⟩
    · exact ⟨⟨[], [], none, [], []⟩, fun h => absurd h hs⟩
  choose F hF using hsites
  refine ⟨(List.range d.size).map fun j => (List.mapM (fun t => pearsonDraw stat d t (signLoo d width draws j) j) (draws.map F)).map fun rs =>
      looExpectation (List.zipWith (fun (s : Draw) (r : ℝ) => (nth s.lw j, |r|)) draws rs) * signLoo d width draws j, ?_, ?_, ?_⟩
  · unfold pearsonResLoo
    rw [mapM_likelihood fun s hs => (hF s hs).1]
    rfl
  · simp
  · intro j hj
    have hR : ∀ s : Draw, ∃ x y : ℝ, s ∈ draws → pearsonDraw stat d (F s) (signLoo d width draws j) j = some y ∧ |y| = |x| ∧ IsPearson stat d j (S s j) x := by
      intro s
      by_cases hs : s ∈ draws
      · obtain ⟨x, hx, hp⟩ := (hF s hs).2 j hj
        have h := pearsonDraw_sign stat d (F s) j (signLoo_abs d width draws j) (signMle_abs d width s.flux j)
        rw [hx] at h
        cases hy : pearsonDraw stat d (F s) (signLoo d width draws j) j with
        | none => rw [hy] at h; cases h
        | some y =>
          rw [hy] at h
          exact ⟨x, y, fun _ => ⟨rfl, Option.some.inj h, hp⟩⟩
      · exact ⟨0, 0, fun h => absurd h hs⟩
    choose R Y hRY using hR
    have hle := signLoo_iff (j := j) (S := fun s => S s j) hexp (hw j hj) fun s hs => ((hr s hs).rate j hj).1
    have hm0 : 0 ≤ looMean draws j fun s => |R s| := looMean_nonneg fun s _ => abs_nonneg _
    have hval : looExpectation (List.zipWith (fun (s : Draw) (r : ℝ) => (nth s.lw j, |r|)) draws (draws.map Y)) = looMean draws j fun s => |R s| := by
      rw [zip_map, C83_expectation, List.map_map]
      show looMean draws j (fun s => |Y s|) = _
      exact looMean_congr fun s hs => (hRY s hs).2.1
    refine ⟨(looMean draws j fun s => |R s|) * signLoo d width draws j, R, ?_, fun s hs => (hRY s hs).2.2, ?_, ?_, ?_, ?_⟩
    · have hm : List.mapM (fun t => pearsonDraw stat d t (signLoo d width draws j) j) (draws.map F) = some (draws.map Y) := by
        rw [List.mapM_map]
        exact mapM_option fun s hs => (hRY s hs).1
      rw [getElem_range_map hj, hm, Option.map_some, hval]
    · rw [abs_mul, signLoo_abs, mul_one, abs_of_nonneg hm0]
    · rw [mul_pow, ← sq_abs (signLoo d width draws j), signLoo_abs, one_pow, mul_one]
      have := looMean_sq (fun s => |R s|) (hn j hj)
      simpa only [sq_abs] using this
    · intro h
      rcases signOf_cases (ceData d width j ≥ looOf draws j fun s => modelSpectrum d width s.flux j) with ⟨hc, he⟩ | ⟨hc, he⟩
      · exact hle.1 hc
      · unfold signLoo at h
        rw [he] at h
        nlinarith
    · intro h
      rcases signOf_cases (ceData d width j ≥ looOf draws j fun s => modelSpectrum d width s.flux j) with ⟨hc, he⟩ | ⟨hc, he⟩
      · unfold signLoo at h
        rw [he] at h
        nlinarith
      · exact not_le.1 fun h => hc (hle.2 h)

/-- **C98** (concentrated posterior).  If all draws of the posterior have the same model, its deviance residuals are those of this model. -/
theorem C98_concentrated (stat : Stat) (d : FitData) (width u : List ℝ) (draws : List Draw) (hne : draws ≠ []) (hn : Normalised d draws)
    (hall : ∀ s ∈ draws, s.flux = u) : devResLoo stat d width draws = devResiduals stat d width u := by
  unfold devResLoo devResiduals
  cases hl : likelihood stat d u with
  | error e =>
    cases draws with
    | nil => exact absurd rfl hne
    | cons a l =>
      rw [List.mapM_cons, hall a (by simp), hl]
      rfl
  | ok t =>
    rw [mapM_likelihood (F := fun _ => t) fun s hs => by rw [hall s hs]; exact hl]
    show Except.ok _ = Except.ok _
    congr 1
    apply List.map_congr_left
    intro j hj
    have hj := List.mem_range.1 hj
    have e1 : signLoo d width draws j = signMle d width u j := by
      unfold signLoo signMle
      have : (looOf draws j fun s => modelSpectrum d width s.flux j) = modelSpectrum d width u j := by
        rw [looOf_eq, looMean_congr (g := fun _ => modelSpectrum d width u j) fun s hs => by rw [hall s hs], looMean_const, hn j hj, mul_one]
      simp only [this]
    rw [e1, zip_map, C83_expectation, List.map_map]
    congr 2
    show looMean draws j (fun _ => devAt t j) = _
    rw [looMean_const, hn j hj, mul_one]
    rfl

/-- **C98** (concentrated posterior, Pearson).  The same for the Pearson residuals, of every channel where they are defined. -/
theorem C98_concentrated_pearson (stat : Stat) (d : FitData) (width u : List ℝ) (s : Nat → ℝ) (draws : List Draw) (hne : draws ≠ []) (hn : Normalised d draws)
    (hall : ∀ s ∈ draws, s.flux = u) (hu : Usable stat d) (ha : Admissible d stat) (hnet : NetConsistent d) (hr : InRange stat d u s) (hexp : 0 < d.exposure)
    (hw : ∀ j < d.size, 0 < nth width j) : pearsonResLoo stat d width draws = pearsonResiduals stat d width u := by
  obtain ⟨t, hl, -, -⟩ := C25_channel_deviance stat d u s hu hr
  rw [pearsonResiduals_eq, hl]
  unfold pearsonResLoo
  rw [mapM_likelihood (F := fun _ => t) fun s hs => by rw [hall s hs]; exact hl]
  show Except.ok _ = Except.ok _
  congr 1
  apply List.map_congr_left
  intro j hj
  have hj := List.mem_range.1 hj
  have e1 : signLoo d width draws j = signMle d width u j := by
    unfold signLoo signMle
    have : (looOf draws j fun s => modelSpectrum d width s.flux j) = modelSpectrum d width u j := by
      rw [looOf_eq, looMean_congr (g := fun _ => modelSpectrum d width u j) fun s hs => by rw [hall s hs], looMean_const, hn j hj, mul_one]
    simp only [this]
  rw [e1, List.mapM_map]
  cases hx : pearsonDraw stat d t (signMle d width u j) j with
  | none =>
    cases draws with
    | nil => exact absurd rfl hne
    | cons a l =>
      rw [List.mapM_cons]
      simp [hx]
  | some x =>
    have hm : List.mapM ((fun t => pearsonDraw stat d t (signMle d width u j) j) ∘ fun _ : Draw => t) draws = some (draws.map fun _ => x) :=
      mapM_option fun s _ => hx
    rw [hm, Option.map_some]
    congr 1
    rw [zip_map, C83_expectation, List.map_map]
    have : (List.map ((fun d : ℝ × ℝ => Real.exp d.1 * d.2) ∘ fun s : Draw => (nth s.lw j, |x|)) draws).sum = |x| := by
      show looMean draws j (fun _ => |x|) = _
      rw [looMean_const, hn j hj, mul_one]
    rw [this]
    have hle := modelSpectrum_le (unfold := u) hexp (hw j hj) (hr.rate j hj).1
    have key : (s j ≤ nth d.netCounts j → 0 ≤ x) ∧ (¬ s j ≤ nth d.netCounts j → x ≤ 0) := by
      by_cases hb : stat.withBack = true
      · have hx' : ∃ q, 0 ≤ q ∧ x = signMle d width u j * Real.sqrt q := by
          unfold pearsonDraw at hx
          dsimp only at hx
          rw [if_pos hb] at hx
          revert hx
          generalize pearson (nth (if stat.specNormal then d.netCounts else d.specCounts) j) _ _ = r
          generalize pearson (nth ((d.back.map (·.counts)).getD []) j) _ _ = rb
          intro hx
          cases r <;> cases rb <;> simp only [pearsonPair, Option.bind_none, Option.bind_some, Option.map_none, Option.map_some, reduceCtorEq, Option.some.injEq] at hx
          exact ⟨_, add_nonneg (mul_self_nonneg _) (mul_self_nonneg _), hx.symm⟩
        obtain ⟨q, hq, rfl⟩ := hx'
        obtain ⟨-, k2, k3⟩ := signMle_pos (unfold := u) hq hle
        exact ⟨fun h => not_lt.1 fun h' => absurd (k3 h') (not_lt.2 h), fun h => not_lt.1 fun h' => h (k2 h')⟩
      · obtain ⟨r, k1, -, k3⟩ := C53_pearson_partial stat d width u s hu hr hexp hw (by rintro rfl; simp [Stat.withBack] at hb)
        obtain ⟨y, hy, hp⟩ := k3 j hj
        rw [pearsonResiduals_eq, hl] at k1
        rw [← Except.ok.inj k1, getElem_range_map hj, hx] at hy
        obtain rfl := Option.some.inj (Option.some.inj hy)
        have hnj := hnet j hj
        unfold IsPearson at hp
        unfold Usable at hu
        cases stat with
        | chi2 =>
          simp only at hp hu
          rw [hp]
          exact ⟨fun h => div_nonneg (by linarith) (hu j hj).le, fun h => div_nonpos_of_nonpos_of_nonneg (by linarith) (hu j hj).le⟩
        | cstat =>
          rw [ha.2] at hnj
          simp only at hp hnj
          rw [hp]
          exact ⟨fun h => div_nonneg (by linarith) (Real.sqrt_nonneg _), fun h => div_nonpos_of_nonpos_of_nonneg (by linarith) (Real.sqrt_nonneg _)⟩
        | pstat =>
          cases hbk : d.back with
          | none => rw [hbk] at hu; exact hu.elim
          | some b =>
            rw [hbk] at hnj hp
            simp only at hp hnj
            rw [hp]
            exact ⟨fun h => div_nonneg (by linarith) (Real.sqrt_nonneg _), fun h => div_nonpos_of_nonpos_of_nonneg (by linarith) (Real.sqrt_nonneg _)⟩
        | pgstat => simp [Stat.withBack] at hb
        | wstat => simp [Stat.withBack] at hb
    unfold signMle signOf
    by_cases hc : s j ≤ nth d.netCounts j
    · rw [if_pos (hle.2 hc), mul_one, abs_of_nonneg (key.1 hc)]
    · rw [if_neg fun h => hc (hle.1 h), abs_of_nonpos (key.2 hc)]
      ring

/-- **C98** (quantile residuals).  With two draws at least: the residual of every channel is finite; without randomisation it is the normal quantile of the weight of the
predictions not above the data, flagged as upper (lower) limit exactly if this weight is zero (one); with randomisation it lies, unless flagged, between the quantiles of
the two ends. -/
theorem C98_quantile (stat : PitStat) (c : PitChannel) (hu : 0 < c.unit) (hc : 0 < c.ratio) (sims : List (ℝ × ℝ)) (h : Weighted sims)
    (chains draws : Nat) (hn : 2 ≤ chains * draws) (u : ℝ) (h0 : 0 ≤ u) (h1 : u < 1) :
    (∀ random, ∃ r : ℝ, (looQuantile chains draws (pitPair stat c sims) random u).1 = r) ∧
    ((looQuantile chains draws (pitPair stat c sims) false u).2.2 = true ↔ upTo sims (observed stat c) = 0) ∧
    ((looQuantile chains draws (pitPair stat c sims) false u).2.1 = true ↔ upTo sims (observed stat c) = 1) ∧
    (0 < upTo sims (observed stat c) → upTo sims (observed stat c) < 1 →
      (looQuantile chains draws (pitPair stat c sims) false u).1 = normPpf (upTo sims (observed stat c))) ∧
    ((looQuantile chains draws (pitPair stat c sims) true u).2 = (false, false) →
      normPpf (pitPair stat c sims).1 ≤ (looQuantile chains draws (pitPair stat c sims) true u).1 ∧
      (looQuantile chains draws (pitPair stat c sims) true u).1 ≤ normPpf (pitPair stat c sims).2) := by
  obtain ⟨b1, b2, b3, b4, -, -⟩ := C83_bracket stat c hu hc sims h
  generalize pitPair stat c sims = p at *
  have hlo : p.1 ≤ p.1 + u * (p.2 - p.1) := by nlinarith
  have hhi : p.1 + u * (p.2 - p.1) ≤ p.2 := by nlinarith
  have hF := C57_limits (chains * draws) hn p.2 (by linarith) b2
  have hT := C57_limits (chains * draws) hn (p.1 + u * (p.2 - p.1)) (by linarith) (by linarith)
  rw [← b3]
  refine ⟨?_, ?_, ?_, ?_, ?_⟩
  · intro random
    cases random with
    | false => exact hF.1
    | true => exact hT.1
  · exact hF.2.1
  · exact hF.2.2.1
  · intro a b
    exact hF.2.2.2.2.2 a.ne' b.ne
  · intro hf
    have f1 : (limitedResidual (chains * draws) (p.1 + u * (p.2 - p.1))).2 = (false, false) := hf
    have n0 : p.1 + u * (p.2 - p.1) ≠ 0 := fun e => by
      have := hT.2.1.2 e; rw [f1] at this; cases this
    have n1 : p.1 + u * (p.2 - p.1) ≠ 1 := fun e => by
      have := hT.2.2.1.2 e; rw [f1] at this; cases this
    have e := hT.2.2.2.2.2 n0 n1
    show normPpf p.1 ≤ (limitedResidual (chains * draws) (p.1 + u * (p.2 - p.1))).1 ∧ (limitedResidual (chains * draws) (p.1 + u * (p.2 - p.1))).1 ≤ normPpf p.2
    rw [e]
    exact ⟨normPpf_mono hlo, normPpf_mono hhi⟩

/-- **C98 fails for `residuals(..., mle=True)`:** the residuals of the maximum likelihood model are not returned, although this model is at hand (`PosteriorResult.mle` computes it when
needed), unless a posterior predictive check was run before. -/
theorem C98_mle_refuted : ¬ ∀ (ppc : Bool) (loo atMle : List ℝ), pointResiduals ppc true loo atMle = some atMle := by
  intro h
  have := h false [] []
  cases this

/-- a posterior with two equally likely draws in the data set of C53 -/
noncomputable def exDraws : List Draw := [⟨[Real.log (1 / 2)], [2]⟩, ⟨[Real.log (1 / 2)], [2]⟩]

example : Normalised exFit exDraws ∧ (∀ s ∈ exDraws, InRange .wstat exFit s.flux (fun _ => 2)) ∧ exDraws ≠ [] := by
  refine ⟨?_, ?_, by simp [exDraws]⟩
  · intro j hj
    have hj0 : j = 0 := by simp [exFit, FitData.size] at hj; exact hj
    subst hj0
    simp only [looMean, exDraws, nth, List.map_cons, List.map_nil, List.getD_cons_zero, List.sum_cons, List.sum_nil]
    rw [Real.exp_log (by norm_num)]
    norm_num
  · intro s hs
    simp only [exDraws, List.mem_cons, List.not_mem_nil, or_false, or_self] at hs
    subst hs
    exact exFit_inRange _

/-- `C98_deviance`, `C98_pearson_partial` and `C98_concentrated` on that posterior. -/
example : (∃ r, devResLoo .wstat exFit [1] exDraws = .ok r ∧ r.length = 1) ∧ (∃ r, pearsonResLoo .wstat exFit [1] exDraws = .ok r ∧ r.length = 1) ∧
    devResLoo .wstat exFit [1] exDraws = devResiduals .wstat exFit [1] [2] := by
  have hn : Normalised exFit exDraws := by
    intro j hj
    have hj0 : j = 0 := by simp [exFit, FitData.size] at hj; exact hj
    subst hj0
    simp only [looMean, exDraws, nth, List.map_cons, List.map_nil, List.getD_cons_zero, List.sum_cons, List.sum_nil]
    rw [Real.exp_log (by norm_num)]
    norm_num
  have hr : ∀ s ∈ exDraws, InRange .wstat exFit s.flux (fun _ => 2) := by
    intro s hs
    simp only [exDraws, List.mem_cons, List.not_mem_nil, or_false, or_self] at hs
    subst hs
    exact exFit_inRange _
  have hw : ∀ j < exFit.size, 0 < nth [1] j := by
    intro j hj
    have hj0 : j = 0 := by simp [exFit, FitData.size] at hj; exact hj
    subst hj0
    norm_num [nth]
  obtain ⟨r, h1, h2, _⟩ := C98_deviance .wstat exFit [1] exDraws (fun _ _ => 2) (exFit_usable _) hr (by norm_num [exFit]) hw
  obtain ⟨p, h3, h4, _⟩ := C98_pearson_partial .wstat exFit [1] exDraws (fun _ _ => 2) (exFit_usable _) hr hn (by norm_num [exFit]) hw
    (by intro _ b hb j hj; obtain rfl := Option.some.inj hb; have hj0 : j = 0 := by simp [exFit, FitData.size] at hj; exact hj
        subst hj0; norm_num [nth])
  exact ⟨⟨r, h1, h2.trans rfl⟩, ⟨p, h3, h4.trans rfl⟩, C98_concentrated .wstat exFit [1] [2] exDraws (by simp [exDraws]) hn
    (by intro s hs; simp only [exDraws, List.mem_cons, List.not_mem_nil, or_false, or_self] at hs; subst hs; rfl)⟩

end Elisa.Plot
