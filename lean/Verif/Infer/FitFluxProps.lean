import Verif.Infer.FitFlux
import Verif.Infer.IntensityProps
import Verif.Models.ShiftProps

/-!
# C134: the fluxes, luminosities and energies a fit reports
-/

namespace Elisa.Infer.FitFlux

open Elisa Elisa.Infer Elisa.Models.Spectra Real MeasureTheory

variable {P : Type}

/-! ## Specification -/

/-- The entry `r'` is the entry `r` in another unit: every number of it is multiplied by `c`. -/
structure Times (c : ℝ) (r r' : Intensity) : Prop where
  mle : r'.mle = c * r.mle
  se : r'.se = c * r.se
  interval : r'.interval = (c * r.interval.1, c * r.interval.2)
  errors : r'.errors = (c * r.errors.1, c * r.errors.2)

/-- Two results list the same data sets, and the entries of the second are those of the first times `c`. -/
def SameTimes (c : ℝ) (rs rs' : List (String × Intensity)) : Prop :=
  List.Forall₂ (fun a b => a.1 = b.1 ∧ Times c a.2 b.2) rs rs'

/-- The band a source at redshift `z` is observed in. -/
noncomputable def observed (b : Band) (z : ℝ) : Band := { b with emin := b.emin / (1 + z), emax := b.emax / (1 + z) }

/-- A band a flux makes sense for. -/
structure Proper (b : Band) : Prop where
  low : 0 < b.emin
  order : b.emin < b.emax
  points : 2 ≤ b.ngrid

/-! ## Lemmas -/

theorem gridOf_eq (b : Band) : gridOf b = bandGrid b.emin b.emax b.ngrid b.log := rfl

theorem fluxOn_eq (m : ModelFn) (energy : Bool) (b : Band) :
    fluxOn m energy (gridOf b) = Models.Spectra.flux m b.emin b.emax energy b.ngrid b.log := rfl

theorem restGrid_eq (b : Band) (z : ℝ) (hz : -1 < z) : restGrid b z = gridOf (observed b z) := by
  have hc : 0 < (1 + z)⁻¹ := inv_pos.2 (by linarith)
  simp only [restGrid, gridOf_eq, observed, div_eq_mul_inv]
  exact (bandGrid_scale hc b.ngrid b.log).symm

theorem lookup_of {ds : List (String × Nat)} (hn : (ds.map (·.1)).Nodup) (d : String × Nat) (hd : d ∈ ds) :
    (ds.lookup d.1).getD 0 = d.2 := by
  induction ds with
  | nil => cases hd
  | cons a ds ih =>
    simp only [List.map_cons, List.nodup_cons] at hn
    rw [List.lookup_cons]
    rcases List.mem_cons.1 hd with rfl | hd
    · simp
    · have : d.1 ≠ a.1 := fun h => hn.1 (h ▸ List.mem_map.2 ⟨d, hd, rfl⟩)
      have e : (d.1 == a.1) = false := by simpa using this
      rw [e]
      exact ih hn.2 hd

theorem entry_times (E : IntensityEngine P) (f g : ℝ) (iv : List (String × ℝ × ℝ)) (se : List (String × ℝ)) (key label : String)
    (x : ℝ) (r : String × Intensity) (h : ({ E with factor := f } : IntensityEngine P).entry iv se key label x = .ok r) :
    ∃ r', ({ E with factor := g * f } : IntensityEngine P).entry iv se key label x = .ok r' ∧ r.1 = r'.1 ∧ Times g r.2 r'.2 := by
  unfold IntensityEngine.entry at h ⊢
  cases hs : dictGet se key with
  | error e => rw [hs] at h; cases h
  | ok s =>
    rw [hs] at h
    cases hi : dictGet iv key with
    | error e => rw [hi] at h; cases h
    | ok i =>
      rw [hi] at h
      have e := Except.ok.inj h
      subst e
      refine ⟨_, rfl, rfl, ?_, ?_, ?_, ?_⟩
      · simp only [IntensityEngine.report]; ring
      · simp only [IntensityEngine.report]; ring
      · simp only [IntensityEngine.report]; congr 1 <;> ring
      · simp only [IntensityEngine.report]; congr 1 <;> ring

theorem mapM_forall₂ {A B : Type} (R : B → B → Prop) (f g : A → Except PyErr B) (h : ∀ a r, f a = .ok r → ∃ r', g a = .ok r' ∧ R r r') :
    ∀ (xs : List A) (ys : List B), xs.mapM f = .ok ys → ∃ ys', xs.mapM g = .ok ys' ∧ List.Forall₂ R ys ys' := by
  intro xs
  induction xs with
  | nil =>
    intro ys hy
    have : ys = [] := by simpa [pure, Except.pure] using hy.symm
    subst this
    exact ⟨[], rfl, .nil⟩
  | cons x xs ih =>
    intro ys hy
    rw [List.mapM_cons] at hy
    cases hx : f x with
    | error e => rw [hx] at hy; cases hy
    | ok r =>
      rw [hx] at hy
      cases hr : xs.mapM f with
      | error e => rw [hr] at hy; cases hy
      | ok rs =>
        rw [hr] at hy
        have e := Except.ok.inj hy
        obtain ⟨r', h1, h2⟩ := h x r hx
        obtain ⟨rs', h3, h4⟩ := ih rs hr
        refine ⟨r' :: rs', ?_, ?_⟩
        · rw [List.mapM_cons, h1, h3]; rfl
        · rw [← e]; exact .cons h2 h4

theorem intensity_times (E : IntensityEngine P) (f g : ℝ) (method : CiMethod) (ds : List (String × Nat)) (fl : String → P → ℝ)
    (rs : List (String × Intensity)) (h : intensity { E with factor := f } method ds fl = .ok rs) :
    ∃ rs', intensity { E with factor := g * f } method ds fl = .ok rs' ∧ SameTimes g rs rs' := by
  unfold intensity at h ⊢
  exact mapM_forall₂ _ _ _ (fun kv r hr => entry_times E f g _ _ _ _ _ r hr) _ _ h

/-! ## C134 -/

/-- **C134** (luminosity).  `lumin` of a fit, for a rest-frame band, is `4π d_L²` times the energy flux that `flux` of the
same fit reports in the observed band - value, standard error, both ends of the interval and both errors of every data set,
in the same order, for either method. -/
theorem C134_lumin (E : IntensityEngine P) (method : CiMethod) (ds : List (String × Nat)) (model : Nat → P → ModelFn)
    (dl : ℝ → ℝ) (z : ℝ) (hz : -1 < z) (b : Band) (rs : List (String × Intensity))
    (h : flux E method ds model true (observed b z) = .ok rs) :
    ∃ rs', lumin E method ds model dl z b = .ok rs' ∧ SameTimes (4 * π * dl z ^ 2) rs rs' := by
  obtain ⟨rs', h1, h2⟩ := intensity_times E 1 (luminFactor dl z) method ds _ rs h
  refine ⟨rs', ?_, h2⟩
  unfold lumin
  rw [restGrid_eq b z hz]
  rwa [mul_one] at h1

/-- **C134** (energy).  `eiso` of a fit is its `lumin` times the duration in the rest frame, entry by entry. -/
theorem C134_eiso (E : IntensityEngine P) (method : CiMethod) (ds : List (String × Nat)) (model : Nat → P → ModelFn)
    (dl : ℝ → ℝ) (z T : ℝ) (b : Band) (rs : List (String × Intensity)) (h : lumin E method ds model dl z b = .ok rs) :
    ∃ rs', eiso E method ds model dl z T b = .ok rs' ∧ SameTimes (T / (1 + z)) rs rs' := by
  obtain ⟨rs', h1, h2⟩ := intensity_times E (luminFactor dl z) (T / (1 + z)) method ds _ rs h
  refine ⟨rs', ?_, h2⟩
  unfold eiso
  rwa [mul_comm] at h1

/-- **C134** (entries).  Whatever data sets share a model, `flux` of a fit has one entry per data set, and the entry is that
of the flux of the model of that data set - the flux the model itself reports for the parameters and the band. -/
theorem C134_flux (E : IntensityEngine P) (method : CiMethod) (ds : List (String × Nat)) (hn : (ds.map (·.1)).Nodup)
    (model : Nat → P → ModelFn) (energy : Bool) (b : Band) :
    ∃ rs, flux E method ds model energy b = .ok rs ∧ (rs.map (·.1)).Perm (ds.map (·.1)) ∧
      ∀ d ∈ ds, ∃ x, (d.1, x) ∈ rs ∧ Reported { E with factor := 1 } method
        (fun p => Models.Spectra.flux (model d.2 p) b.emin b.emax energy b.ngrid b.log) x := by
  unfold flux
  refine C74_datasets _ method ds hn (fun m p => Models.Spectra.flux (model m p) b.emin b.emax energy b.ngrid b.log) _ fun d hd => ?_
  funext p
  rw [lookup_of hn d hd, fluxOn_eq]

/-- **C134** (photon flux).  For a spectrum with exact bins the photon flux reported for a data set is the integral of its
spectrum over the band, at the parameters asked for: it depends neither on the number of grid points nor on their spacing. -/
theorem C134_photon (E : IntensityEngine P) (method : CiMethod) (ds : List (String × Nat)) (hn : (ds.map (·.1)).Nodup)
    (model : Nat → P → ModelFn) (N : Nat → P → ℝ → ℝ) (hm : ∀ k p g, Positive g → model k p g = binIntegrals (N k p) g)
    (hi : ∀ k p a b, 0 < a → 0 < b → IntervalIntegrable (N k p) volume a b) (b : Band) (hb : Proper b)
    (rs : List (String × Intensity)) (h : flux E method ds model false b = .ok rs) (d : String × Nat) (hd : d ∈ ds) :
    ∃ x, (d.1, x) ∈ rs ∧ x.mle = ∫ e in b.emin..b.emax, N d.2 (E.over E.mle) e := by
  obtain ⟨rs', h1, _, h3⟩ := C134_flux E method ds hn model false b
  have e : rs' = rs := Except.ok.inj (h1.symm.trans h)
  subst e
  obtain ⟨x, hx, hr⟩ := h3 d hd
  refine ⟨x, hx, ?_⟩
  rw [hr.mle]
  show 1 * Models.Spectra.flux (model d.2 (E.over E.mle)) b.emin b.emax false b.ngrid b.log = _
  have hp := bandGrid_pos hb.low hb.order b.ngrid b.log
  have hl : (model d.2 (E.over E.mle) (bandGrid b.emin b.emax b.ngrid b.log)).length
      = (bandGrid b.emin b.emax b.ngrid b.log).length - 1 := by
    rw [hm _ _ _ hp]; exact perBin_length _ _
  unfold Models.Spectra.flux
  simp only [Bool.false_eq_true, if_false]
  rw [ne_mul_diff hl (bandGrid_step hb.low hb.order b.ngrid hb.points b.log), hm _ _ _ hp, one_mul]
  obtain ⟨e0, e1⟩ := bandGrid_ends (b := b.emax) hb.low b.ngrid hb.points b.log
  exact sum_binIntegrals (fun x hx y hy => hi _ _ x y (hp x hx) (hp y hy)) _ _ e0 e1

/-- **C134** (adjacent bands).  The photon fluxes a fit reports for two adjacent bands add up to the one it reports for the
whole band, on whatever grids. -/
theorem C134_adjacent (E : IntensityEngine P) (method : CiMethod) (ds : List (String × Nat)) (hn : (ds.map (·.1)).Nodup)
    (model : Nat → P → ModelFn) (N : Nat → P → ℝ → ℝ) (hm : ∀ k p g, Positive g → model k p g = binIntegrals (N k p) g)
    (hi : ∀ k p a b, 0 < a → 0 < b → IntervalIntegrable (N k p) volume a b) (b1 b2 b : Band) (hb1 : Proper b1) (hb2 : Proper b2)
    (hb : Proper b) (he1 : b1.emin = b.emin) (he2 : b1.emax = b2.emin) (he3 : b2.emax = b.emax)
    (r1 r2 r : List (String × Intensity)) (h1 : flux E method ds model false b1 = .ok r1)
    (h2 : flux E method ds model false b2 = .ok r2) (h : flux E method ds model false b = .ok r) (d : String × Nat) (hd : d ∈ ds) :
    ∃ x1 x2 x, (d.1, x1) ∈ r1 ∧ (d.1, x2) ∈ r2 ∧ (d.1, x) ∈ r ∧ x1.mle + x2.mle = x.mle := by
  obtain ⟨x1, k1, e1⟩ := C134_photon E method ds hn model N hm hi b1 hb1 r1 h1 d hd
  obtain ⟨x2, k2, e2⟩ := C134_photon E method ds hn model N hm hi b2 hb2 r2 h2 d hd
  obtain ⟨x, k, e⟩ := C134_photon E method ds hn model N hm hi b hb r h d hd
  refine ⟨x1, x2, x, k1, k2, k, ?_⟩
  rw [e1, e2, e, he1, he2, he3]
  refine intervalIntegral.integral_add_adjacent_intervals (hi _ _ _ _ hb.low hb2.low) (hi _ _ _ _ hb2.low ?_)
  have := hb.low.trans hb.order
  exact this

/-- **C134** (energy flux).  For a non-negative spectrum with exact bins the energy flux reported for a data set on a
logarithmic grid of `n` points is the true one up to the factor `(emax/emin)^(1/(2(n-1)))` either way. -/
theorem C134_energy (E : IntensityEngine P) (method : CiMethod) (ds : List (String × Nat)) (hn : (ds.map (·.1)).Nodup)
    (model : Nat → P → ModelFn) (N : Nat → P → ℝ → ℝ) (hN : ∀ k p e, 0 < e → 0 ≤ N k p e)
    (hm : ∀ k p g, Positive g → model k p g = binIntegrals (N k p) g)
    (hi : ∀ k p a b, 0 < a → 0 < b → IntervalIntegrable (N k p) volume a b) (b : Band) (hb : Proper b) (hl : b.log = true)
    (rs : List (String × Intensity)) (h : flux E method ds model true b = .ok rs) (d : String × Nat) (hd : d ∈ ds) :
    ∃ x, (d.1, x) ∈ rs ∧
      x.mle ≤ (b.emax / b.emin) ^ (1 / (2 * ((b.ngrid : ℝ) - 1))) * energyFlux (N d.2 (E.over E.mle)) b.emin b.emax ∧
      energyFlux (N d.2 (E.over E.mle)) b.emin b.emax ≤ (b.emax / b.emin) ^ (1 / (2 * ((b.ngrid : ℝ) - 1))) * x.mle := by
  obtain ⟨rs', h1, _, h3⟩ := C134_flux E method ds hn model true b
  have e : rs' = rs := Except.ok.inj (h1.symm.trans h)
  subst e
  obtain ⟨x, hx, hr⟩ := h3 d hd
  refine ⟨x, hx, ?_⟩
  have e : x.mle = Models.Spectra.flux (model d.2 (E.over E.mle)) b.emin b.emax true b.ngrid true := by
    rw [hr.mle, hl]
    exact one_mul _
  rw [e]
  exact C62_energy_flux_bound _ _ (hN _ _) (hm _ _) _ _ hb.low hb.order (hi _ _) _ hb.points

/-- **C134** (a source at redshift `z`).  If the fitted models are redshifted ones, the luminosity reported is
`4π (d_L/(1+z))²` times the flux of the model in its own frame: nothing is left of the redshift but the distance. -/
theorem C134_source (E : IntensityEngine P) (method : CiMethod) (ds : List (String × Nat)) (hn : (ds.map (·.1)).Nodup)
    (model : Nat → P → ModelFn) (hs : ∀ k p, WellShaped (model k p)) (dl : ℝ → ℝ) (z : ℝ) (hz : -1 < z) (b : Band) (hb : Proper b)
    (rs : List (String × Intensity)) (h : lumin E method ds (fun k p => zaShift z (model k p)) dl z b = .ok rs)
    (d : String × Nat) (hd : d ∈ ds) :
    ∃ x, (d.1, x) ∈ rs ∧
      x.mle = 4 * π * (dl z / (1 + z)) ^ 2 * Models.Spectra.flux (model d.2 (E.over E.mle)) b.emin b.emax true b.ngrid b.log := by
  obtain ⟨r0, h1, _, h3⟩ := C134_flux E method ds hn (fun k p => zaShift z (model k p)) true (observed b z)
  obtain ⟨rs', h4, h5⟩ := C134_lumin E method ds _ dl z hz b r0 h1
  have e : rs' = rs := Except.ok.inj (h4.symm.trans h)
  subst e
  obtain ⟨x, hx, hr⟩ := h3 d hd
  obtain ⟨i, hi, hxi⟩ := List.mem_iff_getElem.1 hx
  have hlen := h5.length_eq
  have hk := h5.get hi (hlen ▸ hi)
  simp only [List.get_eq_getElem, hxi] at hk
  refine ⟨(rs'[i]'(hlen ▸ hi)).2, ?_, ?_⟩
  · have : (rs'[i]'(hlen ▸ hi)) ∈ rs' := List.getElem_mem _
    rw [hk.1]; exact this
  · rw [hk.2.mle, hr.mle]
    have := C63_luminosity dl z hz (model d.2 (E.over E.mle)) (hs _ _) b.emin b.emax hb.low hb.order b.ngrid hb.points b.log
    rw [← this]
    show 4 * π * dl z ^ 2 * (1 * Models.Spectra.flux (zaShift z (model d.2 (E.over E.mle))) (b.emin / (1 + z)) (b.emax / (1 + z)) true b.ngrid b.log) = _
    unfold Models.Spectra.lumin
    ring

/-- **C134** (refuted: unusable requests are accepted).  With a grid of one point `flux` reports zero for every data set,
every model and both kinds of flux, and does not complain. -/
theorem C134_one_point_refuted (E : IntensityEngine P) (method : CiMethod) (ds : List (String × Nat)) (hn : (ds.map (·.1)).Nodup)
    (model : Nat → P → ModelFn) (energy : Bool) (b : Band) (hb : b.ngrid = 1) :
    ∃ rs, flux E method ds model energy b = .ok rs ∧ ∀ d ∈ ds, ∃ x, (d.1, x) ∈ rs ∧ x.mle = 0 := by
  obtain ⟨rs, h1, _, h3⟩ := C134_flux E method ds hn model energy b
  refine ⟨rs, h1, fun d hd => ?_⟩
  obtain ⟨x, hx, hr⟩ := h3 d hd
  refine ⟨x, hx, ?_⟩
  rw [hr.mle, hb]
  have : ∀ f : List ℝ, (List.zipWith (fun v d => v * d) f (diff (bandGrid b.emin b.emax 1 b.log))).sum = 0 := by
    intro f
    have : diff (bandGrid b.emin b.emax 1 b.log) = [] := by
      cases b.log <;> simp [bandGrid, linspace, geomspace, diff]
    rw [this]; simp
  show 1 * Models.Spectra.flux (model d.2 (E.over E.mle)) b.emin b.emax energy 1 b.log = 0
  unfold Models.Spectra.flux
  rw [this, mul_zero]

/-- **C134** (refuted: a reversed band is accepted).  Asking for the photon flux of `N = 1` between 2 and 1 keV on a linear
grid of two points reports -1, and does not complain. -/
theorem C134_reversed_refuted (E : IntensityEngine P) (method : CiMethod) :
    ∃ (model : Nat → P → ModelFn) (b : Band) (rs : List (String × Intensity)) (x : Intensity),
      (∀ k p g, Positive g → model k p g = binIntegrals (fun _ => 1) g) ∧
      flux E method [("a", 0)] model false b = .ok rs ∧ ("a", x) ∈ rs ∧ x.mle < 0 := by
  obtain ⟨rs, h1, _, h3⟩ := C134_flux E method [("a", 0)] (by simp) (fun _ _ => binIntegrals fun _ => 1) false ⟨2, 1, 2, false⟩
  obtain ⟨x, hx, hr⟩ := h3 ("a", 0) (by simp)
  refine ⟨_, _, rs, x, fun _ _ _ _ => rfl, h1, hx, ?_⟩
  rw [hr.mle]
  show 1 * Models.Spectra.flux (binIntegrals fun _ => 1) 2 1 false 2 false < 0
  norm_num [Models.Spectra.flux, bandGrid, linspace, List.range_succ, ne, binIntegrals, perBin, diff]

/-! ## A case -/

/-- Two data sets with the same power law of index 2 fitted to them, and a third with a redshifted one. -/
noncomputable def exModel : Nat → ℝ → ModelFn
  | 0, K => powerLaw 2 K
  | _, K => powerLaw 1 K

example : Proper ⟨1, 10000, 1000, true⟩ := ⟨by norm_num, by norm_num, by norm_num⟩

example : ∃ rs, flux exEngine .profile [("a", 0), ("b", 1), ("c", 0)] exModel false ⟨1, 10, 5, true⟩ = .ok rs ∧
    ∃ x, ("c", x) ∈ rs ∧ x.mle = ∫ e in (1 : ℝ)..10, 10 * e ^ (-2 : ℝ) := by
  have hn : ([("a", 0), ("b", 1), ("c", 0)].map (·.1)).Nodup := by decide
  obtain ⟨rs, h, _, _⟩ := C134_flux exEngine .profile [("a", 0), ("b", 1), ("c", 0)] hn exModel false ⟨1, 10, 5, true⟩
  refine ⟨rs, h, ?_⟩
  exact C134_photon exEngine .profile _ hn exModel
    (fun k K e => match k with | 0 => K * e ^ (-2 : ℝ) | _ => K * e ^ (-1 : ℝ))
    (fun k p g hg => by cases k <;> exact C36_exact _ p g hg)
    (fun k p a b ha hb => by cases k <;> exact rpow_intervalIntegrable ha hb _ _)
    ⟨1, 10, 5, true⟩ ⟨by norm_num, by norm_num, by norm_num⟩ rs h ("c", 0) (by simp)

example (dl : ℝ → ℝ) : ∃ r r' r'', flux exEngine .boot [("a", 0), ("b", 1)] exModel true (observed ⟨1, 10000, 1000, true⟩ 2) = .ok r ∧
    lumin exEngine .boot [("a", 0), ("b", 1)] exModel dl 2 ⟨1, 10000, 1000, true⟩ = .ok r' ∧
    eiso exEngine .boot [("a", 0), ("b", 1)] exModel dl 2 30 ⟨1, 10000, 1000, true⟩ = .ok r'' ∧
    SameTimes (4 * π * dl 2 ^ 2) r r' ∧ SameTimes (30 / (1 + 2)) r' r'' := by
  obtain ⟨r, h, _, _⟩ := C134_flux exEngine .boot [("a", 0), ("b", 1)] (by decide) exModel true (observed ⟨1, 10000, 1000, true⟩ 2)
  obtain ⟨r', h1, h2⟩ := C134_lumin exEngine .boot [("a", 0), ("b", 1)] exModel dl 2 (by norm_num) ⟨1, 10000, 1000, true⟩ r h
  obtain ⟨r'', h3, h4⟩ := C134_eiso exEngine .boot [("a", 0), ("b", 1)] exModel dl 2 30 ⟨1, 10000, 1000, true⟩ r' h1
  exact ⟨r, r', r'', h, h1, h3, h2, h4⟩

end Elisa.Infer.FitFlux
