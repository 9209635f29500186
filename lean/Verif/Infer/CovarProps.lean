import Verif.Infer.Covar
import Verif.Infer.ParamsProps
import Mathlib.LinearAlgebra.Matrix.Rank
import Mathlib.Algebra.Order.Star.Real

/-!
# C75: covariance matrices
-/

namespace Elisa.Infer

open Elisa Elisa.Grouping Matrix

/-! ## Values -/

/-- **C75**, error propagation: the covariance of derived quantities is the first-order one,
`Σ_kl ∂i/∂k · C_kl · ∂j/∂l`; it is symmetric and positive semi-definite if the input is; applying it in two steps is the same as applying it
to the composed functions, so a user function has the same variance as a composite parameter with the same formula; and
adding functions changes nothing for the parameters. -/
theorem C75_propagation {m n : Type} [Fintype m] [Fintype n] [DecidableEq n] (J : Matrix m n ℝ) (C : Matrix n n ℝ) :
    (∀ i j, propagate J C i j = ∑ k, ∑ l, J i k * C k l * J j l) ∧
    (C.IsSymm → (propagate J C).IsSymm) ∧
    (C.PosSemidef → (propagate J C).PosSemidef) ∧
    (∀ {f : Type} (F : Matrix f m ℝ), propagate F (propagate J C) = propagate (F * J) C) ∧
    (∀ {f : Type} (F : Matrix f n ℝ), propagate (withFns F) C = Matrix.fromBlocks C (C * Fᵀ) (F * C) (propagate F C)) := by
  refine ⟨?_, ?_, ?_, ?_, ?_⟩
  · intro i j
    simp only [propagate, Matrix.mul_apply, Matrix.transpose_apply, Finset.sum_mul]
    rw [Finset.sum_comm]
  · intro h
    unfold propagate Matrix.IsSymm
    rw [Matrix.transpose_mul, Matrix.transpose_mul, Matrix.transpose_transpose, h.eq, Matrix.mul_assoc]
  · intro h
    unfold propagate
    have := h.mul_mul_conjTranspose_same J
    rwa [Matrix.conjTranspose_eq_transpose_of_trivial] at this
  · intro f F
    simp only [propagate, Matrix.transpose_mul, Matrix.mul_assoc]
  · intro f F
    unfold propagate withFns
    rw [Matrix.transpose_fromRows, Matrix.fromRows_mul, Matrix.fromRows_mul_fromCols]
    simp

/-- **C75**, the Hessian: if the deviance is minus twice the log-likelihood, so that its Hessian is twice the observed
information `I`, the covariance of the fit is the inverse of the observed information. -/
theorem C75_information {n : Type} [Fintype n] [DecidableEq n] (I : Matrix n n ℝ) (h : IsUnit I.det) :
    hessCovar ((2 : ℝ) • I) = I⁻¹ ∧ (I.PosDef → (hessCovar ((2 : ℝ) • I)).PosDef) := by
  have e : hessCovar ((2 : ℝ) • I) = I⁻¹ := by
    unfold hessCovar
    have h2 : IsUnit (2 : ℝ) := by simp
    have : ((2 : ℝ) • I)⁻¹ = (2 : ℝ)⁻¹ • I⁻¹ := by
      apply Matrix.inv_eq_left_inv
      rw [Matrix.smul_mul, Matrix.mul_smul, smul_smul, Matrix.nonsing_inv_mul _ h]
      norm_num
    rw [this, smul_smul]
    norm_num
  exact ⟨e, fun hp => by rw [e]; exact hp.inv⟩

example : IsUnit (1 : Matrix (Fin 2) (Fin 2) ℝ).det ∧ (1 : Matrix (Fin 2) (Fin 2) ℝ).PosDef :=
  ⟨by simp, Matrix.PosDef.one⟩

theorem posDef_card {m n : Type} [Fintype m] [Fintype n] [DecidableEq m] (J : Matrix m n ℝ) (C : Matrix n n ℝ)
    (h : (propagate J C).PosDef) : Fintype.card m ≤ Fintype.card n := by
  have h1 : (propagate J C).rank = Fintype.card m := Matrix.rank_of_isUnit _ h.isUnit
  have h2 : (propagate J C).rank ≤ Fintype.card n := by
    unfold propagate
    rw [Matrix.mul_assoc]
    exact (Matrix.rank_mul_le_left _ _).trans (Matrix.rank_le_card_width _)
  omega

/-- **C75**, source of the covariance: the exact Hessian is used if and only if its covariance is positive definite or Minuit
has none; with a composite parameter (more parameters than free ones) that never happens, and the covariance of
Minuit, when there is one, is used for all parameters. -/
theorem C75_source {m n : Type} [Fintype m] [Fintype n] [DecidableEq m] [DecidableEq n] (J : Matrix m n ℝ)
    (H C : Matrix n n ℝ) :
    ((propagate J (hessCovar H)).PosDef → mleCovar J H (some C) = propagate J (hessCovar H)) ∧
    (¬ (propagate J (hessCovar H)).PosDef → mleCovar J H (some C) = propagate J C) ∧
    mleCovar J H none = propagate J (hessCovar H) ∧
    (Fintype.card n < Fintype.card m → mleCovar J H (some C) = propagate J C) := by
  classical
  have h2 : ¬ (propagate J (hessCovar H)).PosDef → mleCovar J H (some C) = propagate J C := by
    intro h; unfold mleCovar; rw [if_neg h]
  refine ⟨fun h => by unfold mleCovar; rw [if_pos h], h2, ?_, fun h => h2 fun hp => ?_⟩
  · unfold mleCovar; split_ifs <;> rfl
  · have := posDef_card _ _ hp; omega

example : Fintype.card (Fin 2) < Fintype.card (Fin 3) := by simp

/-! ## Selection -/

theorem applyMask_labels {α : Type} (L : List String) (p : String → Bool) (xs : List α) (hn : L.Nodup)
    (hl : xs.length = L.length) (d : α) :
    applyMask (L.map p) xs = (L.filter p).map fun a => xs.getD (L.idxOf a) d := by
  induction L generalizing xs with
  | nil => simp [applyMask]
  | cons a L ih =>
    cases xs with
    | nil => simp at hl
    | cons x xs =>
      rw [List.nodup_cons] at hn
      have ih' := ih xs hn.2 (by simpa using hl)
      have hrest : ∀ b ∈ L.filter p, (x :: xs).getD ((a :: L).idxOf b) d = xs.getD (L.idxOf b) d := by
        intro b hb
        have hne : a ≠ b := by rintro rfl; exact hn.1 (List.mem_filter.1 hb).1
        rw [List.idxOf_cons_ne _ hne]; simp
      have hcons : applyMask ((a :: L).map p) (x :: xs) =
          (if p a then [x] else []) ++ applyMask (L.map p) xs := by
        unfold applyMask
        rw [List.map_cons, List.zip_cons_cons, List.filterMap_cons]
        cases p a <;> simp
      rw [hcons, ih', List.filter_cons]
      cases hp : p a with
      | true =>
        simp only [if_true, List.map_cons, List.singleton_append]
        rw [List.map_congr_left hrest]
        simp
      | false =>
        simp only [Bool.false_eq_true, if_false, List.nil_append]
        rw [List.map_congr_left hrest]

theorem sublist_filter {r L : List String} (hn : L.Nodup) (hs : r.Sublist L) :
    L.filter (fun p => decide (p ∈ r)) = r := by
  induction hs with
  | slnil => rfl
  | @cons r L a hs ih =>
    rw [List.nodup_cons] at hn
    have ha : a ∉ r := fun h => hn.1 (hs.subset h)
    rw [List.filter_cons, if_neg (by simpa using ha), ih hn.2]
  | @cons_cons r L a hs ih =>
    rw [List.nodup_cons] at hn
    rw [List.filter_cons, if_pos (by simp)]
    congr 1
    have ha : a ∉ r := fun h => hn.1 (hs.subset h)
    rw [← ih hn.2]
    apply List.filter_congr
    intro x hx
    have : x ≠ a := by rintro rfl; exact hn.1 hx
    simp only [List.mem_cons, this, false_or, ih hn.2]

/-- `M` is a square table of numbers whose rows and columns belong to the names `L`. -/
def IsTable (L : List String) (M : List (List ℝ)) : Prop := M.length = L.length ∧ ∀ row ∈ M, row.length = L.length

/-- The number in the row of `a` and the column of `b`. -/
def tableAt (L : List String) (M : List (List ℝ)) (a b : String) : ℝ := (M.getD (L.idxOf a) []).getD (L.idxOf b) 0

theorem labelled_ok {table params fns : List String} {M : List (List ℝ)} (hn : (table ++ fns).Nodup)
    (hs : params.Sublist table) (hM : IsTable (table ++ fns) M) :
    ∃ m, labelled table params fns (.matrix M) = .ok (params ++ fns, m) ∧
      IsTable (params ++ fns) m ∧ ∀ a ∈ params ++ fns, ∀ b ∈ params ++ fns,
        entry (params ++ fns, m) a b = some (tableAt (table ++ fns) M a b) := by
  set L := table ++ fns with hL
  set q : String → Bool := fun p => decide (p ∈ params ++ fns) with hq
  have hmask : (table.map (fun p => decide (p ∈ params)) ++ fns.map fun _ => true) = L.map q := by
    rw [hL, List.map_append]
    congr 1
    · apply List.map_congr_left
      intro p hp
      have : p ∉ fns := fun h => (List.disjoint_of_nodup_append hn) hp h
      simp [hq, this]
    · apply List.map_congr_left
      intro p hp
      simp [hq, hp]
  have hfilter : L.filter q = params ++ fns := sublist_filter hn (hs.append (List.Sublist.refl _))
  have hsel : selectMask (L.map q) (.matrix M) = .ok ((params ++ fns).map fun a =>
      (params ++ fns).map fun b => tableAt L M a b) := by
    unfold selectMask
    simp only
    rw [if_neg (by simp [hM.1])]
    congr 1
    rw [applyMask_labels L q _ hn (by simp [hM.1]) [], hfilter]
    apply List.map_congr_left
    intro a ha
    have haL : a ∈ L := by rw [← hfilter] at ha; exact (List.mem_filter.1 ha).1
    have hi : L.idxOf a < M.length := by rw [hM.1]; exact List.idxOf_lt_length_of_mem haL
    have hrow : (M.map fun row => applyMask (L.map q) row).getD (L.idxOf a) [] =
        applyMask (L.map q) (M.getD (L.idxOf a) []) := by
      simp [List.getD, List.getElem?_map, List.getElem?_eq_getElem hi]
    have hlen : (M.getD (L.idxOf a) []).length = L.length := by
      simp only [List.getD, List.getElem?_eq_getElem hi, Option.getD_some]
      exact hM.2 _ (List.getElem_mem hi)
    rw [hrow, applyMask_labels L q _ hn hlen 0, hfilter]
    rfl
  refine ⟨(params ++ fns).map fun a => (params ++ fns).map fun b => tableAt L M a b, ?_, ?_, ?_⟩
  · unfold labelled
    simp only [hmask]
    rw [hsel]
    simp only [bind, Except.bind, assignAll, List.length_map, if_true, pure, Except.pure]
  · refine ⟨by simp, fun row hrow => ?_⟩
    obtain ⟨a, _, rfl⟩ := List.mem_map.1 hrow
    simp
  · intro a ha b hb
    unfold entry
    simp only
    rw [List.getElem?_map, List.getElem?_eq_getElem (List.idxOf_lt_length_of_mem ha)]
    simp only [Option.map_some, List.getElem_idxOf]
    rw [List.getElem?_map, List.getElem?_eq_getElem (List.idxOf_lt_length_of_mem hb)]
    simp

/-- **C75**, selection: for every accepted request of parameters and all functions (whose names are distinct
and differ from the parameters), the covariance matrix has one row and column per requested parameter and function, and the entry of two
names is the covariance of exactly these two quantities. -/
theorem C75_selection (h : ParamTable) (hc : h.Consistent) (arg : ParamArg) (fns : List String) (M : List (List ℝ))
    (hn : (h.all ++ fns).Nodup) (hM : IsTable (h.all ++ fns) M)
    (hsel : ∃ names, requested h arg = some names ∧ ∀ p ∈ names, Selectable h p) :
    ∃ names m, mleCovarSelect h arg fns (.matrix M) = .ok (names, m) ∧ IsTable names m ∧ names.Nodup ∧
      (∀ p, p ∈ names ↔ (∃ req, requested h arg = some req ∧ p ∈ req) ∨ p ∈ fns) ∧
      ∀ a ∈ names, ∀ b ∈ names, entry (names, m) a b = some (tableAt (h.all ++ fns) M a b) := by
  obtain ⟨r, h1, h2, h3, h4⟩ := (C51_selection h hc arg).1 hsel
  obtain ⟨m, h5, h6, h7⟩ := labelled_ok hn h3 hM
  refine ⟨r ++ fns, m, ?_, h6, hn.sublist (h3.append (List.Sublist.refl _)), ?_, h7⟩
  · unfold mleCovarSelect
    simp only [h1, bind, Except.bind, h5]
  · intro p; rw [List.mem_append, h4]

/-- requesting a composite and a free parameter in the wrong order -/
example : mleCovarSelect exTable (.many ["f", "PowerLaw.K"]) ["g"]
    (.matrix [[1, 2, 3, 4, 5], [2, 6, 7, 8, 9], [3, 7, 10, 11, 12], [4, 8, 11, 13, 14], [5, 9, 12, 14, 15]]) =
    .ok (["PowerLaw.K", "f", "g"], [[1, 4, 5], [4, 13, 14], [5, 14, 15]]) := by
  have : checkParams exTable (.many ["f", "PowerLaw.K"]) = .ok ["PowerLaw.K", "f"] := by decide +kernel
  simp only [mleCovarSelect, this, bind, Except.bind]
  simp [labelled, exTable, selectMask, assignAll, applyMask, bind, Except.bind, pure, Except.pure]

theorem npCov_matrix {cols : List (List ℝ)} (h : cols.length ≠ 1) :
    npCov cols = .matrix (cols.map fun a => cols.map fun b => sampleCov a b) := by
  match cols, h with
  | [], _ => rfl
  | [c], h => simp at h
  | a :: b :: cs, _ => rfl

/-- **C75**, posterior samples (partial: only free parameters are requested, and there are at least two columns).  The
entries are the sample covariances of the requested names.  Missing with respect to C75: `C75_single_refuted` and
`C75_posterior_composite_refuted`. -/
theorem C75_posterior_partial (h : ParamTable) (hc : h.Consistent) (free : List String) (arg : ParamArg)
    (fns : List String) (cols : List (List ℝ)) (hfree : free.Sublist h.all) (hn : (h.all ++ fns).Nodup)
    (hl : cols.length = (free ++ fns).length) (h1 : cols.length ≠ 1)
    (hsel : ∃ names, requested h arg = some names ∧ ∀ p ∈ names, Selectable h p ∧ p ∈ free) :
    ∃ names m, posteriorCovar h free arg fns cols = .ok (names, m) ∧ IsTable names m ∧
      (∀ p, p ∈ names ↔ (∃ req, requested h arg = some req ∧ p ∈ req) ∨ p ∈ fns) ∧
      ∀ a ∈ names, ∀ b ∈ names, entry (names, m) a b =
        some (sampleCov (cols.getD ((free ++ fns).idxOf a) []) (cols.getD ((free ++ fns).idxOf b) [])) := by
  obtain ⟨names, hreq, hall⟩ := hsel
  obtain ⟨r, g1, g2, g3, g4⟩ := (C51_selection h hc arg).1 ⟨names, hreq, fun p hp => (hall p hp).1⟩
  have hnall : h.all.Nodup := (List.nodup_append.1 hn).1
  have hrf : ∀ p ∈ r, p ∈ free := by
    intro p hp
    obtain ⟨req, e, hp⟩ := (g4 p).1 hp
    rw [hreq] at e
    obtain rfl := Option.some.inj e
    exact (hall p hp).2
  have hsub : r.Sublist free := by
    have e1 := sublist_filter hnall g3
    have e2 := sublist_filter hnall hfree
    rw [← e1, ← e2]
    rw [show h.all.filter (fun p => decide (p ∈ r)) =
      (h.all.filter (fun p => decide (p ∈ free))).filter (fun p => decide (p ∈ r)) by
        rw [List.filter_filter]
        apply List.filter_congr
        intro x _
        by_cases hx : x ∈ r
        · simp [hx, hrf x hx]
        · simp [hx]]
    exact List.filter_sublist
  have hnf : (free ++ fns).Nodup := hn.sublist (hfree.append (List.Sublist.refl _))
  have hM : IsTable (free ++ fns) (cols.map fun a => cols.map fun b => sampleCov a b) := by
    refine ⟨by simp [hl], ?_⟩
    intro row hrow
    obtain ⟨a, _, rfl⟩ := List.mem_map.1 hrow
    simp [hl]
  obtain ⟨m, k1, k2, k3⟩ := labelled_ok hnf hsub hM
  refine ⟨r ++ fns, m, ?_, k2, ?_, ?_⟩
  · unfold posteriorCovar
    simp only [g1, bind, Except.bind, npCov_matrix h1, k1]
  · intro p; rw [List.mem_append, g4]
  · intro a ha b hb
    rw [k3 a ha b hb]
    congr 1
    have hs2 := hsub.append (List.Sublist.refl fns)
    have ia : (free ++ fns).idxOf a < cols.length := by rw [hl]; exact List.idxOf_lt_length_of_mem (hs2.subset ha)
    have ib : (free ++ fns).idxOf b < cols.length := by rw [hl]; exact List.idxOf_lt_length_of_mem (hs2.subset hb)
    unfold tableAt
    simp [List.getD, List.getElem?_map, List.getElem?_eq_getElem ia, List.getElem?_eq_getElem ib]

example : (["PowerLaw.K", "PowerLaw.alpha"] : List String).Sublist exTable.all ∧ (exTable.all ++ ["g"]).Nodup ∧
    ∃ names, requested exTable (.one "PowerLaw.K") = some names ∧
      ∀ p ∈ names, Selectable exTable p ∧ p ∈ (["PowerLaw.K", "PowerLaw.alpha"] : List String) := by
  refine ⟨by decide, by decide, ["PowerLaw.K"], rfl, ?_⟩
  intro p hp
  simp only [List.mem_singleton] at hp
  subst hp
  refine ⟨⟨.inl (by simp [exTable]), ?_⟩, by simp⟩
  intro e he hep
  simp only [exTable, List.mem_cons, List.not_mem_nil, or_false] at he
  rcases he with rfl | rfl | rfl | rfl | rfl <;> simp_all

/-- **C75**, violation: with a single free parameter and no functions the posterior covariance is never available, because the
1x1 matrix is reduced to a number before it is indexed; the same happens in a bootstrap of a one-parameter model. -/
theorem C75_single_refuted (h : ParamTable) (free : List String) (arg : ParamArg) (col : List ℝ) (r : List String)
    (hr : checkParams h arg = .ok r) :
    posteriorCovar h free arg [] [col] = .error .indexError ∧
    mleCovarSelect h arg [] (npCov [col]) = .error .indexError := by
  constructor
  · unfold posteriorCovar labelled
    simp [hr, bind, Except.bind, npCov, selectMask]
  · unfold mleCovarSelect labelled
    simp [hr, bind, Except.bind, npCov, selectMask]

/-- **C75**, violation for composite parameters: the samples hold the free parameters only.  A request for one free and one
composite parameter, each of which is accepted, returns the variance of the free parameter in all four entries:
as variance of the composite parameter and as covariance of the two. -/
theorem C75_posterior_composite_refuted (h : ParamTable) (free : List String) (arg : ParamArg) (a c : String)
    (cols : List (List ℝ)) (hn : free.Nodup) (hl : cols.length = free.length) (h2 : 2 ≤ free.length)
    (ha : a ∈ free) (hcf : c ∉ free) (hr : checkParams h arg = .ok [a, c]) :
    ∃ m, posteriorCovar h free arg [] cols = .ok ([a, c], m) ∧
      ∀ x ∈ [a, c], ∀ y ∈ [a, c], entry ([a, c], m) x y =
        some (sampleCov (cols.getD (free.idxOf a) []) (cols.getD (free.idxOf a) [])) := by
  set v := sampleCov (cols.getD (free.idxOf a) []) (cols.getD (free.idxOf a) []) with hv
  have hac : a ≠ c := by rintro rfl; exact hcf ha
  have hM : IsTable (free ++ []) (cols.map fun a => cols.map fun b => sampleCov a b) := by
    refine ⟨by simp [hl], ?_⟩
    intro row hrow
    obtain ⟨a, _, rfl⟩ := List.mem_map.1 hrow
    simp [hl]
  have hmask : free.map (fun p => decide (p ∈ [a, c])) = free.map (fun p => decide (p ∈ [a])) := by
    apply List.map_congr_left
    intro p hp
    have : p ≠ c := by rintro rfl; exact hcf hp
    simp [this]
  have hsel : selectMask (free.map (fun p => decide (p ∈ [a])))
      (.matrix (cols.map fun a => cols.map fun b => sampleCov a b)) = .ok [[v]] := by
    have hf : free.filter (fun p => decide (p ∈ [a])) = [a] := sublist_filter hn (List.singleton_sublist.2 ha)
    have ia : free.idxOf a < cols.length := by rw [hl]; exact List.idxOf_lt_length_of_mem ha
    unfold selectMask
    simp only
    rw [if_neg (by simp [hl])]
    congr 1
    rw [applyMask_labels free _ _ hn (by simp [hl]) [], hf]
    simp only [List.map_cons, List.map_nil, List.cons.injEq, and_true]
    rw [List.map_map]
    simp only [List.getD, List.getElem?_map, List.getElem?_eq_getElem ia, Option.map_some, Option.getD_some,
      Function.comp_apply]
    rw [applyMask_labels free _ _ hn (by simp [hl]) 0, hf]
    simp only [List.map_cons, List.map_nil, List.cons.injEq, and_true]
    simp [hv, List.getD, List.getElem?_map, List.getElem?_eq_getElem ia]
  refine ⟨[[v, v], [v, v]], ?_, ?_⟩
  · unfold posteriorCovar labelled
    rw [npCov_matrix (by omega)]
    simp only [hr, bind, Except.bind, List.map_nil, List.append_nil, hmask, hsel, assignAll]
    simp [pure, Except.pure, List.replicate]
  · intro x hx y hy
    simp only [List.mem_cons, List.not_mem_nil, or_false] at hx hy
    rcases hx with rfl | rfl <;> rcases hy with rfl | rfl <;>
      simp [entry, hac]

/-- such a request: a free and a composite parameter of a model with three free ones -/
example : checkParams exTable (.many ["PowerLaw.K", "Cutoff.Ec"]) = .ok ["PowerLaw.K", "Cutoff.Ec"] ∧
    "PowerLaw.K" ∈ ["PowerLaw.K", "PowerLaw.alpha"] ∧ "Cutoff.Ec" ∉ ["PowerLaw.K", "PowerLaw.alpha"] :=
  ⟨by decide +kernel, by decide, by decide⟩

/-- **C75**, second violation for composite parameters: a user function of a composite parameter passes the check of the
function but fails with a `KeyError` when it is evaluated on the posterior samples. -/
theorem C75_posterior_fn_refuted (all free reads : List String) (c : String) (h1 : ∀ r ∈ reads, r ∈ all)
    (h2 : c ∈ reads) (h3 : c ∉ free) : checkFn all reads = .ok () ∧ evalFn free reads = .error .keyError := by
  refine ⟨by unfold checkFn; rw [if_pos h1], ?_⟩
  unfold evalFn
  rw [if_neg]
  intro h; exact h3 (h c h2)

example : ∀ r ∈ ["PowerLaw.K", "Cutoff.Ec"], r ∈ exTable.all := by decide

/-! ## Samples -/

theorem sampleCov_symm (xs ys : List ℝ) (h : xs.length = ys.length) : sampleCov xs ys = sampleCov ys xs := by
  unfold sampleCov
  rw [h, List.zipWith_comm]
  congr 3
  funext x y
  ring

/-- **C75**, sample covariances: symmetric, and the variance of a column is not negative; a column of constants has no
variance. -/
theorem C75_sample_covariance (xs ys : List ℝ) (h : xs.length = ys.length) (h2 : 2 ≤ xs.length) :
    sampleCov xs ys = sampleCov ys xs ∧ 0 ≤ sampleCov xs xs ∧
    (sampleCov xs xs = 0 ↔ ∀ x ∈ xs, x = mean xs) := by
  have hpos : (0 : ℝ) < (xs.length : ℝ) - 1 := by
    have : (2 : ℝ) ≤ xs.length := by exact_mod_cast h2
    linarith
  have hz : List.zipWith (fun x y => (x - mean xs) * (y - mean xs)) xs xs = xs.map fun x => (x - mean xs) ^ 2 := by
    rw [List.zipWith_self]
    apply List.map_congr_left
    intro x _; ring
  have hs : ∀ (l : List ℝ), (∀ x ∈ l, 0 ≤ x) → (l.sum = 0 ↔ ∀ x ∈ l, x = 0) := by
    intro l hl
    induction l with
    | nil => simp
    | cons a l ih =>
      have h1 := hl a List.mem_cons_self
      have h2 := List.sum_nonneg fun x hx => hl x (List.mem_cons_of_mem _ hx)
      have h3 := ih fun x hx => hl x (List.mem_cons_of_mem _ hx)
      rw [List.sum_cons]
      constructor
      · intro h x hx
        rcases List.mem_cons.1 hx with rfl | hx
        · linarith
        · exact h3.1 (by linarith) x hx
      · intro h
        rw [h a List.mem_cons_self, h3.2 fun x hx => h x (List.mem_cons_of_mem _ hx), add_zero]
  have hnn : ∀ x ∈ xs.map fun x => (x - mean xs) ^ 2, 0 ≤ x := by
    intro x hx
    obtain ⟨y, _, rfl⟩ := List.mem_map.1 hx
    positivity
  refine ⟨sampleCov_symm xs ys h, ?_, ?_⟩
  · unfold sampleCov
    rw [hz]
    exact div_nonneg (List.sum_nonneg hnn) hpos.le
  · unfold sampleCov
    rw [hz, div_eq_zero_iff, or_iff_left hpos.ne', hs _ hnn]
    constructor
    · intro h x hx
      have := h _ (List.mem_map.2 ⟨x, hx, rfl⟩)
      have := pow_eq_zero_iff (two_ne_zero) |>.1 this
      linarith
    · intro h x hx
      obtain ⟨y, hy, rfl⟩ := List.mem_map.1 hx
      rw [h y hy, sub_self]; norm_num

example : sampleCov [1, 3] [2, 6] = 4 := by
  norm_num [sampleCov, mean]

/-- **C75**, number of samples (partial): bootstrap samples, and more than 10000 posterior samples, are always reduced to a multiple
of the number of devices, dropping fewer than that number of them (from 10000).  Missing: `C75_samples_refuted`. -/
theorem C75_samples_partial (dev n : Nat) (hd : 0 < dev) :
    (evalParallel dev (bootCount dev n) = .ok (bootCount dev n) ∧ bootCount dev n ≤ n ∧ n < bootCount dev n + dev) ∧
    (10000 < n → evalParallel dev (posteriorCount dev n) = .ok (posteriorCount dev n) ∧
      posteriorCount dev n ≤ 10000 ∧ 10000 < posteriorCount dev n + dev) := by
  have key : ∀ k, (k - k % dev) % dev = 0 := fun k => Nat.sub_mod_eq_zero_of_mod_eq (by simp)
  have hlt := Nat.mod_lt n hd
  have hlt2 := Nat.mod_lt 10000 hd
  have hle := Nat.mod_le n dev
  have hle2 := Nat.mod_le 10000 dev
  refine ⟨⟨?_, ?_, ?_⟩, fun h => ⟨?_, ?_, ?_⟩⟩
  · unfold evalParallel bootCount; rw [if_pos (key n)]
  · unfold bootCount; omega
  · unfold bootCount; omega
  · unfold evalParallel posteriorCount; rw [if_pos h, if_pos (key 10000)]
  · unfold posteriorCount; rw [if_pos h]; omega
  · unfold posteriorCount; rw [if_pos h]; omega

example := C75_samples_partial 4 10010 (by norm_num)

/-- **C75**, violation: at most 10000 posterior samples are not reduced, so that the default parallel evaluation of functions fails
whenever their number is no multiple of the number of devices. -/
theorem C75_samples_refuted (dev n : Nat) (h : n ≤ 10000) (hd : n % dev ≠ 0) :
    evalParallel dev (posteriorCount dev n) = .error .valueError := by
  have : posteriorCount dev n = n := by unfold posteriorCount; rw [if_neg (by omega)]
  unfold evalParallel
  rw [this, if_neg hd]

example : (4999 : Nat) ≤ 10000 ∧ 4999 % 4 ≠ 0 := by decide

end Elisa.Infer
