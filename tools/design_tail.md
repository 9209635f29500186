## Trusted base

* Lean's kernel.  Axioms: every property theorem depends on a subset of `propext`, `Classical.choice`, `Quot.sound` (`AXIOMS.md`).  No
  axioms are declared, no proof is left open, no compiled evaluation (`native_decide`, `bv_decide`) is used.
* That the definitions of the model say what the cited lines do.  They were written by reading the source; nothing was executed.
* That the definitions of Mathlib (real numbers, integrals, Gaussian measure) are what their names say.

## What is modelled

| Python | Lean |
|---|---|
| `data/grouping.py` (all) | `Grouping/*` |
| `data/base.py`: SpectrumData, ResponseData, ObservationData constructors, quality, ranges, grouping, `group`, response grouping, FWHM | `Data/Obs`, `Data/Construct`, `Data/Group`, `Data/Fwhm` |
| `data/ogip.py`: spectrum, response, ARF decoding, names, defaults | `Data/Ogip` |
| `infer/likelihood.py`, `infer/helper.py`: statistics, simulation, parameter conversions, batches | `Infer/Likelihood`, `Infer/Sim`, `Infer/Params`, `Infer/Batch`, `Infer/Covar` |
| `infer/fit.py`: inputs, default statistics, names, maximum likelihood drivers, sampler drivers | `Infer/Fit`, `Infer/MaxLike`, `Infer/Kernel`, `Infer/Ensemble`, `Infer/NestedPrior`, `Util/Namespace` |
| `infer/results.py`: intervals, profile intervals, fluxes, bootstrap, predictive checks, information criteria, PSIS tables, stored posteriors | `Infer/Level`, `Infer/Credible`, `Infer/Profile`, `Infer/Intensity`, `Infer/Resample`, `Infer/IData`, `Infer/LooPit` |
| `infer/samplers/*` | `Infer/Ensemble`, `Infer/NestedPrior`, `Infer/Kernel` |
| `models/parameter.py` | `Models/Param`, `Models/Label`, `Models/Tracker`, `Models/Info` |
| `models/model.py`: algebra, compilation, evaluation, fluxes, simulation, settings | `Models/Algebra`, `Models/Info`, `Models/Interval`, `Models/Settings`, `Infer/SimObs` |
| `models/add.py`, `mul.py`, `conv.py`: every component | `Models/Spectra`, `Models/Mul` |
| `models/xs.py`: declarations, calling conventions, extended grids | `Models/Xspec` |
| `plot/residuals.py`, `plot/data.py`, `plot/scale.py`, `plot/misc.py`, `plot/util.py` | `Plot/*`, `Infer/LooPit` |
| `plot/plotter.py`: requests, panels, settings, colours and markers, what each curve and band shows, diagnostics (not the drawing itself) | `Plot/Request`, `Plot/Settings`, `Plot/Draw`, `Plot/Bands`, `Plot/Diag`, `Plot/Cache` |
| `data/base.py`, `data/ogip.py`: spectrum, effective area and response plots (what is drawn where) | `Data/PlotSpec`, `Plot/RespPlot` |
| `util/*`: configuration, progress bars, finite differences, quadrature wrappers, unique names, unit labels | `Util/*`, `Models/Interval` |

## What is not modelled

Rounding and overflow except where stated (counts, C144 and C145; profile backgrounds, C146; expected counts, C147; the C-statistic, C149; chi-square and P-statistic, C152; the W-statistic, C153; the PG-statistic, C155; power law bins, C150; the Li-Ma significance, C151; the significance over a Gaussian background, C154; the plain significance, C156; sums over intervals of channels, C157; the optimal groupings by significance, C158 and C159); JAX tracing and compilation; the numerical algorithms of Minuit, optimistix, NUTS, the ensemble moves
(but their directions, C117) and the nested samplers; FITS input and output below the level of columns and keywords; matplotlib's drawing; XSPEC itself;
the layout of tables (`__repr__`, `_repr_html_`) and warnings other than those of spectra (C160); `util/bslogu.py` (entirely commented out); `infer/lrt.py` (a stub); multivariate parameters.

## Further observations about the code

Found while modelling, not all of them stated as theorems.

* `significance_lima(1, 5, 0.2)` is NaN in float64 (the exact value is 0): the log likelihood ratio of a group without an excess is a rounding error of either sign, and a
  negative one has no square root.  `NaN < sig` is false, so `group_sig_lima` does not merge such a last group (C151).
* Background uncertainties of zero are accepted with a warning. The significance over such a background is 0/0 = NaN, however many counts there are, so that grouping by it closes no group (C154).
* With positive uncertainties `significance_gv` can still be NaN: for no counts over 43 ± √43 (a deficit of more than six standard deviations) and for an excess of zero, 3 counts over 3 ± 3.8; and it is infinite where the uncertainty squared is more than 2^53 times the counts (C154), plus infinity even where the counts equal the background and the significance is zero, minus infinity where they are fewer (C154_equality_refuted). A last channel of undefined significance is not joined to the group before it but fails the grouping (C154_last_refuted).
* `bsig` with a scale of 3 on Poisson background counts (errors √n) asks for 9 counts per group. In float64 1 + 8 counts do not reach it, because the square of the rounded √8 is above 8, and the group goes on (C156).
* The groupings by significance take sums over intervals as differences of running totals, so a channel with an uncertainty above 10^8 times that of a later one erases the variance of the later one, whose significance becomes NaN (C157).
* A power law whose index differs from one by a unit in the last place has no photons between 0.9 and 1.1 keV (`_powerlaw_integral`, C150); an optimizer that approaches index one loses
  digits in proportion.
* Dead code: the duplicate-id check of `Fit` (fit.py:398-406), the missing-ARF warning, `tree_depth` of the NUTS wrapper, the block `if j > imax` of the optimal grouping loops,
  `Response._drop_zeros`, `wstat_errors`, `model_info.fixed` for composites (holds NaN and is never read).
* `LinLogScale(subs=...)` has no effect on the position of the minor ticks (scale.py:399-419).
* `erange=[1, 2, 3, 4]` is accepted as one range of four numbers, of which only the first two are used.
* When a file has both `COUNTS` and `RATE`, `STAT_ERR` is multiplied by the exposure although the counts are used.
* A header background cannot be switched off by an argument.
* `simulate_from_data` does not carry over the `net` setting; the energy range of simulated data is the whole range of channels.
* `combine_residuals` compares `dof == 1.0`, which is ambiguous (raises) for arrays of more than one element.
* Posterior samples of at most 10000 draws are not trimmed to a multiple of the number of devices, unlike bootstrap samples.
* Misspelt parameter names in `flux(params=...)` are ignored (C111_unknown).
* `Edge` and `GAbs` declare a lower bound of zero for a quantity they divide by.
* The unit of a parameter shared by two component slots is that of the last component.
* The label of a parameter given by the user is overwritten when it is assigned to a slot.
* `PosteriorPlotData.residuals(mle=True)` returns nothing without a posterior predictive check (C98_mle_refuted).
* `ignore_nan` is documented to replace NaN by `-1e300`; it is replaced by minus infinity (and minus infinity by the lowest number), C117_nan.
* Linking a parameter to one with wider bounds can improve the best fit, because the bounds of the linked parameter are not applied (C132).
* Inside their declared bounds: a line of zero width, `PLAbs` with index 1 and an `Edge` at energy 0 give NaN (C133); `PLPhFlux` and `PLEnFlux` accept `emin` of zero or less.
* The flux of a fit accepts a grid of one point (the flux is then zero) and a reversed band (the flux is then negative) (C134).
* With log-uniform priors the most probable parameters are not the best-fit parameters (C135).
* Amplitudes are bounded below by 1e-10, so adding a component can make the best fit worse (C136).
* `set_grouping` keeps the array it is given and later writes into it; `data.grouping` is the spectrum's own array, so `set_grouping(None)` need not restore the flags of the file (C137).
* Without a background `net_counts` is the array `spec_counts` itself; sparse response matrices are kept without a copy (C137).
* The p-value of a bootstrap test is k/n, not (k+1)/(n+1): zero is reported with probability 1/(n+1) although the model is true (C143).
* Without background counts the profile background of the W-statistic can be negative by a rounding error; numpy refuses to simulate Poisson counts from it. With background
  counts it can be exactly zero for a very bright source, which makes the statistic infinite (C146).
* A negative count in an ignored channel switches off the averaging of the area scale of the net counts (C142).
* Broken power laws integrated with the trapezoid rule depend on the photon energy grid of the response (C141).
* With a `wstat` background the lower probability integral transform skips simulations that lie less than one count below the data (C57).
* A systematic error given as a header keyword is ignored without a warning (C160_keyword_refuted); the tolerance for Poisson counts that are not whole numbers is relative, so `1e9 + 0.5` counts are accepted
  silently (C160_integer_refuted); a zero statistical error is warned of although a systematic error makes the stored error positive (C160_zero_refuted).
* `replace_string` applies the keys of a mapping one after the other, so the replacement of one key can be replaced again by the next (C161).
* In float64 the sums over intervals are differences of prefix sums: behind a channel with a very bright background, faint channels are lost (C157_refuted). With a very uncertain background the
  significance is infinite in float64, so every channel becomes a group (C154_infinite_refuted, C159_gv_refuted, C162_gv_refuted).
