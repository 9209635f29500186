import Verif.Infer.FitProps
import Verif.Data.LoadProps

/-!
# From the files to the statistic: specification of C97

Only the contents of the files, the arguments of `Data(...)`, the energy ranges and grouping flags in force, and the model flux of every energy bin of the
response occur here.
-/

namespace Elisa.Infer

open Elisa Elisa.Grouping Elisa.Data

/-- The files a data set is made of: the spectrum, the background, the redistribution matrix and the effective area. -/
structure Sources where
  src : Pha
  back : Option Pha
  rmf : Rmf
  arf : Option (List ℝ)

/-- These are the files that the arguments, or else the header of the spectrum, name. -/
structure Sources.Of (int : Path → Option Int) (fs : Files) (a : LoadArgs) (S : Sources) : Prop where
  named : ∃ row : PhaRow, S.src = row.pha ∧
    (∃ f id t, parsePath int a.spec = .ok (f, id) ∧ fs.spec f = some t ∧ t.row id = .ok row) ∧
    ((Unnamed a.back row.back ∧ S.back = none) ∨ ∃ bp f id t br, Named a.back row.back bp ∧ parsePath int bp = .ok (f, id) ∧
      fs.spec f = some t ∧ t.row id = .ok br ∧ S.back = some br.pha) ∧
    (∃ rp f id exts, Named a.resp row.resp rp ∧ parsePath int rp = .ok (f, id) ∧ fs.resp f = some exts ∧ exts (id.getD 1) = some S.rmf) ∧
    ((Unnamed a.ancr row.ancr ∧ S.arf = none) ∨ ∃ ap l, Named a.ancr row.ancr ap ∧ fs.arf ap = some l ∧ S.arf = some l)

/-- The columns of a spectrum: quality, counts, variance and the two scales of every channel, and the exposure. -/
structure Columns where
  poisson : Bool
  q : ℕ → Int
  c : ℕ → ℝ
  v : ℕ → ℝ
  area : ℕ → ℝ
  scal : ℕ → ℝ
  time : ℝ

/-- These are the columns of a file with `n` channels.  (The variance of Gaussian data holds the systematic part twice, see C19; quality is 0 without a
quality column.) -/
structure Columns.From (x : Columns) (p : Pha) (arg : Option Bool) (n : ℕ) : Prop where
  flag : p.Flag arg x.poisson
  time : x.time = p.exposure
  counts : ∃ l, p.Counts l ∧ l.length = n ∧ ∀ i, x.c i = at0 l i
  quality : (p.quality = none → ∀ i, i < n → x.q i = 0) ∧ ∀ l, p.quality = some (.inr l) → ∀ i, x.q i = l.getD i 0
  poissonVar : x.poisson = true → ∀ i, i < n → x.v i = x.c i
  gaussVar : x.poisson = false → (∀ f, p.sysErr ≠ some (.inl f)) → ∃ e, p.StatErrors e ∧ ∀ i, i < n → x.v i = at0 e i ^ 2 + 2 * (p.sysAt i * x.c i) ^ 2
  area : ∀ i, i < n → x.area i = givenScale p.areaScal (x.q i) i
  scal : ∀ i, i < n → x.scal i = givenScale p.backScal (x.q i) i

/-- The spectrum is background-subtracted: the header says so, or it says nothing and some count is negative. -/
def NetSpectrum (p : Pha) (x : Columns) : Prop :=
  p.hduclas2 = "NET" ∨ (p.hduclas2 ≠ "TOTAL" ∧ p.hduclas2 ≠ "BKG" ∧ ∃ i, x.c i < 0)

/-- A channel that is used: its quality is good in the spectrum and in the background. -/
def Used (ignoreBad : Bool) (x : Columns) (back : Option Columns) (i : ℕ) : Prop :=
  (x.q i ≠ 1 ∧ (ignoreBad = true → x.q i ≠ 2 ∧ x.q i ≠ 5)) ∧
    ∀ b, back = some b → b.q i ≠ 1 ∧ (ignoreBad = true → b.q i ≠ 2 ∧ b.q i ≠ 5)

/-- The channels `i` with `a ≤ i < b` make up one channel of the fit: they are one group of the flags, inside an energy range, and one of them is used. -/
def FitGroup (m : Rmf) (used : ℕ → Prop) (ranges : List (ℝ × ℝ)) (flags : List Int) (a b : ℕ) : Prop :=
  IsGroup flags a b ∧ (∃ r ∈ ranges, ∀ i, a ≤ i → i < b → r.1 ≤ m.emin.getD i 0 ∧ m.emax.getD i 0 ≤ r.2) ∧ ∃ i, a ≤ i ∧ i < b ∧ used i

/-- Ratio of the effective exposures of source and background in a set of channels. -/
noncomputable def onOffRatio (x b : Columns) (S : Finset ℕ) : ℝ :=
  x.time * effScale false S x.c x.area * effScale false S x.c x.scal / (b.time * effScale false S b.c b.area * effScale false S b.c b.scal)

/-- Expected source counts in a set of channels for the fluxes `u` of the energy bins: exposure, times area scale, times the fluxes folded with the matrix `M` and the
effective area. -/
noncomputable def sourceCounts (x : Columns) (net : Bool) (bins : ℕ) (M : ℕ → ℕ → ℝ) (arf : ℕ → ℝ) (u : ℕ → ℝ) (S : Finset ℕ) : ℝ :=
  x.time * effScale net S x.c x.area * ∑ k ∈ Finset.range bins, u k * arf k * ∑ i ∈ S, M k i

/-- `e^{-D/2}` is the likelihood of `n` counts (variance `v`) and background `b` (counts, variance, ratio), for `s` expected source counts, divided by that of a perfect
model, and maximised over the background where it is unknown. -/
def LikelihoodRatio (stat : Stat) (n v : ℝ) (back : Option (ℝ × ℝ × ℝ)) (s D : ℝ) : Prop :=
  match stat, back with
  | .chi2, none => Real.exp (-D / 2) = gaussLik n s (Real.sqrt v)
  | .chi2, some (b, w, α) => Real.exp (-D / 2) = gaussLik (n - α * b) s (Real.sqrt (v + α ^ 2 * w))
  | .cstat, none => Real.exp (-D / 2) = poisLik n s / poisLik n n
  | .pstat, some (b, _, α) => Real.exp (-D / 2) = poisLik n (s + α * b) / poisLik n n
  | .pgstat, some (b, w, α) => IsGreatest {l | ∃ y, 0 ≤ y ∧ l = onGaussLik n b (Real.sqrt w) s α y / poisLik n n} (Real.exp (-D / 2))
  | .wstat, some (b, _, α) => IsGreatest {l | ∃ y, 0 ≤ y ∧ l = onOffLik n b s α y / (poisLik n n * poisLik b b)} (Real.exp (-D / 2))
  | _, _ => False

/-! ## Use of a data set -/

/-- What a user may do with a data set before the fit. -/
inductive Use where
  | setErange (r : List (ℝ × ℝ))
  | setGrouping (flags : Option (List Int))
  | group (m : Method) (scale : Option ℝ) (preserve : Bool)

/-- One call of `set_erange` (base.py:233-256), `set_grouping` (base.py:258-369) or `group` (base.py:371-694); an exception is caught by the caller. -/
noncomputable def useStep (o : Obs) (x : ObsObj) : Use → ObsObj
  | .setErange r => (x.setErange o r).1
  | .setGrouping f => (x.setGrouping o f).1
  | .group m scale preserve =>
    match o.group x.erange m scale preserve with
    | .ok r => { x with st := r.st }
    | .error _ => x

/-- The data set after some calls. -/
noncomputable def useAll (o : Obs) (x : ObsObj) (us : List Use) : ObsObj := us.foldl (useStep o) x

/-- A member of a fit: a loaded data set, what was done with it, the statistic, and the model flux of every energy bin. -/
structure Member where
  args : LoadArgs
  data : Loaded
  uses : List Use
  stat : Stat
  flux : List ℝ

/-- The object when the fit begins. -/
noncomputable def Member.obj (m : Member) : ObsObj := useAll m.data.obs m.data.obj m.uses

/-- What the fit receives (fit.py, base.py:881-915). -/
noncomputable def Member.fitData (m : Member) : FitData := FitData.ofObs m.data.obs m.obj.st

/-- `Ds` are the deviances of the channels of a member of a fit, one for every group of channels in use, in order of energy channel: each is the likelihood ratio of the
statistic for the counts, variances and exposure ratios in the files and the source counts that follow from the fluxes, exposure, area scale, matrix and effective
area, provided that fluxes and expected counts lie in the numerical range of the program. -/
def Member.Explained (int : Path → Option Int) (fs : Files) (m : Member) (Ds : List ℝ) : Prop :=
  ∃ (S : Sources) (n : ℕ) (x : Columns) (b : Option Columns) (net : Bool) (L : List (ℕ × ℕ)),
    S.Of int fs m.args ∧ S.rmf.detchans = some n ∧ x.From S.src m.args.specPoisson n ∧
    (S.back = none → b = none) ∧ (∀ p, S.back = some p → ∃ y, b = some y ∧ y.From p m.args.backPoisson n) ∧
    (net = true ↔ NetSpectrum S.src x ∧ S.back = none) ∧
    L.Pairwise (fun e f => e.2 ≤ f.1) ∧ (∀ a c, (a, c) ∈ L ↔ FitGroup S.rmf (Used m.args.ignoreBad x b) m.obj.erange m.obj.st.grouping a c) ∧
    Ds.length = L.length ∧
    ∀ M : ℕ → ℕ → ℝ, (∀ (k : ℕ) row, S.rmf.rows[k]? = some row → Encodes (S.rmf.tlmin.getD 1) n row (M k)) →
      (∀ k, k < S.rmf.rows.length → 1e-300 ≤ nth m.flux k ∧ nth m.flux k ≤ 1e300) →
      (m.stat = .pgstat → ∀ y, b = some y → ∀ i, 0 ≤ y.c i) →
      ∀ s : Finset ℕ → ℝ, (∀ T, s T = sourceCounts x net S.rmf.rows.length M (fun k => (S.arf.map (·.getD k 0)).getD 1) (nth m.flux) T) →
      ∀ T : ℕ → Finset ℕ, (∀ j e, L[j]? = some e → ∀ i, i ∈ T j ↔ e.1 ≤ i ∧ i < e.2 ∧ Used m.args.ignoreBad x b i) →
      (∀ j, j < L.length → let μ := if m.stat = .pstat then s (T j) + (b.map fun y => onOffRatio x y (T j) * ∑ i ∈ T j, y.c i).getD 0 else s (T j)
        1e-30 ≤ μ ∧ μ ≤ 1e15) →
      ∀ j D, Ds[j]? = some D → 0 ≤ D ∧
        LikelihoodRatio m.stat (∑ i ∈ T j, x.c i) (∑ i ∈ T j, x.v i) (b.map fun y => (∑ i ∈ T j, y.c i, ∑ i ∈ T j, y.v i, onOffRatio x y (T j))) (s (T j)) D

end Elisa.Infer
