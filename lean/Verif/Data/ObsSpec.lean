import Verif.Data.Obs
import Verif.Grouping.ScaleSpec
import Verif.Grouping.Spec

/-!
# Specification vocabulary for observations

Independent of the model functions: only plain arrays, the flags, and the quality array.
-/

namespace Elisa.Data

open Elisa Elisa.Grouping

/-- A legal spectrum of `n` channels (the documented invariants of `SpectrumData`). -/
structure Spectrum.Legal (s : Spectrum) (n : Nat) : Prop where
  pos : 0 < n
  counts : s.counts.length = n
  errors : s.errors.length = n
  quality : s.quality.length = n
  grouping : s.grouping.length = n
  area : s.areaScale.length = n
  back : s.backScale.length = n
  qualityValues : ∀ q ∈ s.quality, q = 0 ∨ q = 1 ∨ q = 2 ∨ q = 5 ∨ q = -1
  poissonCounts : s.poisson = true → ∀ c ∈ s.counts, 0 ≤ c
  errorsNonneg : ∀ e ∈ s.errors, 0 ≤ e
  exposure : 0 < s.exposure
  areaPos : ∀ i, s.quality[i]? ≠ some 1 → i < n → 0 < s.areaScale.getD i 0
  backPos : ∀ i, s.quality[i]? ≠ some 1 → i < n → 0 < s.backScale.getD i 0
  areaNonneg : ∀ x ∈ s.areaScale, 0 ≤ x
  backNonneg : ∀ x ∈ s.backScale, 0 ≤ x
  firstStart : ∃ f, s.grouping[0]? = some f ∧ f ≠ -1

/-- A legal response with `n` channels. -/
structure Response.Legal (r : Response) (n : Nat) : Prop where
  emin : r.emin.length = n
  emax : r.emax.length = n
  rows : ∀ row ∈ r.matrix, row.length = n
  ordered : ∀ i, i < n → r.emin.getD i 0 ≤ r.emax.getD i 0

/-- A legal observation with `n` channels: what `ObservationData(...)` accepts. -/
structure Obs.Legal (o : Obs) (n : Nat) : Prop where
  spec : o.spec.Legal n
  back : ∀ b, o.back = some b → b.Legal n
  resp : o.resp.Legal n
  good : o.good.length = n
  /-- a good channel is not flagged bad in the spectrum (quality 1) -/
  goodSpec : ∀ i : Nat, o.good[i]? = some true → o.spec.quality[i]? ≠ some 1
  goodBack : ∀ b, o.back = some b → ∀ i : Nat, o.good[i]? = some true → b.quality[i]? ≠ some 1
  someGood : ∃ i : Nat, o.good[i]? = some true

/-- The good channels among `a, ..., b-1`. -/
def Obs.goodSet (o : Obs) (a b : Nat) : Finset Nat := goodIn (some o.good) a b

/-- The channels `a, ..., b-1` lie inside one of the energy ranges, and one of them is good. -/
def Obs.Noticed (o : Obs) (erange : List (ℝ × ℝ)) (a b : Nat) : Prop :=
  (∃ r ∈ erange, ∀ i, a ≤ i → i < b → r.1 ≤ o.resp.emin.getD i 0 ∧ o.resp.emax.getD i 0 ≤ r.2) ∧
    ∃ i, a ≤ i ∧ i < b ∧ o.good[i]? = some true

/-- `L` lists the noticed groups `[a, b)` of the flags, in increasing order. -/
def Obs.NoticedGroups (o : Obs) (erange : List (ℝ × ℝ)) (flags : List Int) (L : List (Nat × Nat)) :
    Prop :=
  L.Pairwise (fun e f => e.2 ≤ f.1) ∧
    ∀ a b, (a, b) ∈ L ↔ IsGroup flags a b ∧ o.Noticed erange a b

/-- Background to source scaling of a set of channels: the ratio of the effective exposures
exposure * AREASCAL * BACKSCAL. -/
noncomputable def Obs.ratioOf (o : Obs) (b : Spectrum) (S : Finset Nat) : ℝ :=
  o.spec.exposure * effScale false S (at0 o.spec.counts) (at0 o.spec.areaScale)
      * effScale false S (at0 o.spec.counts) (at0 o.spec.backScale)
    / (b.exposure * effScale false S (at0 b.counts) (at0 b.areaScale)
      * effScale false S (at0 b.counts) (at0 b.backScale))

end Elisa.Data
