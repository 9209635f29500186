import Verif.Plot.Diag
import Verif.Plot.BandsProps
import Verif.Infer.BatchProps
import Mathlib.MeasureTheory.Constructions.Pi
import Mathlib.Data.Nat.Choose.Sum

/-!
# C94: diagnostic plots show what their axes say
-/

namespace Elisa.Plot

open Elisa Elisa.Infer MeasureTheory

/-! ## How many of `n` independent values are at most `t` -/

section Count

variable {n : ℕ} (μ : Measure ℝ) [IsProbabilityMeasure μ]

/-- The positions of the values at most `t`. -/
noncomputable def atMost (t : ℝ) (ω : Fin n → ℝ) : Finset (Fin n) := Finset.univ.filter fun i => ω i ≤ t

theorem atMost_eq_iff (t : ℝ) (ω : Fin n → ℝ) (S : Finset (Fin n)) :
    atMost t ω = S ↔ ω ∈ Set.univ.pi (fun i => if i ∈ S then Set.Iic t else Set.Ioi t) := by
  simp only [Set.mem_univ_pi]
  constructor
  · rintro rfl i
    by_cases h : ω i ≤ t
    · simp [atMost, h]
    · simp [atMost, h]
      exact not_le.1 h
  · intro h
    ext i
    have := h i
    by_cases hi : i ∈ S
    · simp only [hi, if_true, Set.mem_Iic] at this
      simp [atMost, this, hi]
    · simp only [hi, if_false, Set.mem_Ioi] at this
      simp [atMost, this, hi]

theorem prob_atMost_eq (t p : ℝ) (hp : μ.real (Set.Iic t) = p) (S : Finset (Fin n)) :
    (Measure.pi fun _ : Fin n => μ).real {ω | atMost t ω = S} = p ^ S.card * (1 - p) ^ (n - S.card) := by
  have he : {ω : Fin n → ℝ | atMost t ω = S} = Set.univ.pi (fun i => if i ∈ S then Set.Iic t else Set.Ioi t) := by
    ext ω
    exact atMost_eq_iff t ω S
  have hq : μ.real (Set.Ioi t) = 1 - p := by
    have : (Set.Ioi t) = (Set.Iic t)ᶜ := by simp
    rw [this, measureReal_compl measurableSet_Iic, hp]
    simp
  rw [he, Measure.real, Measure.pi_pi, ENNReal.toReal_prod]
  have : ∀ i : Fin n, (μ (if i ∈ S then Set.Iic t else Set.Ioi t)).toReal = if i ∈ S then p else 1 - p := by
    intro i
    split
    · exact hp
    · exact hq
  simp only [this]
  rw [Finset.prod_ite, Finset.prod_const, Finset.prod_const]
  congr 2
  · rw [Finset.filter_mem_eq_inter]
    simp
  · have : (Finset.univ.filter fun i => i ∉ S) = Sᶜ := by
      ext i
      simp
    rw [this, Finset.card_compl, Fintype.card_fin]

theorem measurable_atMost (t : ℝ) (S : Finset (Fin n)) : MeasurableSet {ω : Fin n → ℝ | atMost t ω = S} := by
  have he : {ω : Fin n → ℝ | atMost t ω = S} = Set.univ.pi (fun i => if i ∈ S then Set.Iic t else Set.Ioi t) := by
    ext ω
    exact atMost_eq_iff t ω S
  rw [he]
  refine MeasurableSet.univ_pi fun i => ?_
  split
  · exact measurableSet_Iic
  · exact measurableSet_Ioi

/-- The number of values at most `t` has the binomial distribution. -/
theorem prob_count (t p : ℝ) (hp : μ.real (Set.Iic t) = p) (P : ℕ → Prop) [DecidablePred P] :
    (Measure.pi fun _ : Fin n => μ).real {ω | P (atMost t ω).card} = ∑ k ∈ Finset.range (n + 1), if P k then (n.choose k : ℝ) * p ^ k * (1 - p) ^ (n - k) else 0 := by
  have he : {ω : Fin n → ℝ | P (atMost t ω).card} = ⋃ S ∈ Finset.univ.filter (fun S : Finset (Fin n) => P S.card), {ω | atMost t ω = S} := by
    ext ω
    simp
  rw [he, measureReal_biUnion_finset]
  · rw [Finset.sum_filter]
    have h1 : ∀ S : Finset (Fin n), (if P S.card then (Measure.pi fun _ : Fin n => μ).real {ω | atMost t ω = S} else 0) =
        (fun k => if P k then p ^ k * (1 - p) ^ (n - k) else 0) S.card := by
      intro S
      simp only
      split
      · exact prob_atMost_eq μ t p hp S
      · rfl
    rw [Finset.sum_congr rfl fun S _ => h1 S]
    rw [← Finset.powerset_univ, Finset.sum_powerset]
    rw [Finset.card_univ, Fintype.card_fin]
    apply Finset.sum_congr rfl
    intro k _
    have : ∀ S ∈ Finset.powersetCard k (Finset.univ : Finset (Fin n)), (fun k => if P k then p ^ k * (1 - p) ^ (n - k) else 0) S.card = if P k then p ^ k * (1 - p) ^ (n - k) else 0 := by
      intro S hS
      rw [(Finset.mem_powersetCard.1 hS).2]
    rw [Finset.sum_congr rfl this, Finset.sum_const, Finset.card_powersetCard, Finset.card_univ, Fintype.card_fin, nsmul_eq_mul]
    split
    · ring
    · simp
  · intro S _ S' _ hne
    rw [Function.onFun, Set.disjoint_left]
    intro ω h1 h2
    exact hne (h1.symm.trans h2)
  · intro S _
    exact measurable_atMost t S

theorem countP_ofFn (t : ℝ) (ω : Fin n → ℝ) : (List.ofFn ω).countP (fun p => decide (p ≤ t)) = (atMost t ω).card := by
  rw [List.ofFn_eq_map, List.countP_map, List.countP_eq_length_filter]
  unfold atMost
  have hnd : ((List.finRange n).filter (fun i => decide (ω i ≤ t))).Nodup := (List.nodup_finRange n).filter _
  have hc : (List.filter ((fun p => decide (p ≤ t)) ∘ ω) (List.finRange n)) = (List.finRange n).filter (fun i => decide (ω i ≤ t)) := rfl
  rw [hc, ← List.toFinset_card_of_nodup hnd]
  congr 1
  ext i
  simp

end Count

/-! ## The binomial distribution -/

theorem binom_term_nonneg (n : ℕ) (p : ℝ) (h0 : 0 ≤ p) (h1 : p ≤ 1) (k : ℕ) : 0 ≤ (n.choose k : ℝ) * p ^ k * (1 - p) ^ (n - k) := by
  have : 0 ≤ 1 - p := by linarith
  positivity

theorem binomCdf_mono (n : ℕ) (p : ℝ) (h0 : 0 ≤ p) (h1 : p ≤ 1) : Monotone (binomCdf n p) := by
  intro a b hab
  unfold binomCdf
  exact Finset.sum_le_sum_of_subset_of_nonneg (Finset.range_subset_range.2 (by omega)) (fun k _ _ => binom_term_nonneg n p h0 h1 k)

theorem binomCdf_full (n : ℕ) (p : ℝ) : binomCdf n p n = 1 := by
  unfold binomCdf
  have := add_pow p (1 - p) n
  rw [add_sub_cancel, one_pow] at this
  refine Eq.trans ?_ this.symm
  exact Finset.sum_congr rfl fun k _ => by ring

theorem binomPpf_mem (n : ℕ) (p q : ℝ) : q ≤ binomCdf n p (binomPpf n p q) ∨ n ≤ binomPpf n p q :=
  Nat.sInf_mem (s := {k | q ≤ binomCdf n p k ∨ n ≤ k}) ⟨n, Or.inr le_rfl⟩

theorem binomPpf_le (n : ℕ) (p q : ℝ) : binomPpf n p q ≤ n := Nat.sInf_le (Or.inr le_rfl)

theorem binomPpf_spec (n : ℕ) (p q : ℝ) (hq : q ≤ 1) : q ≤ binomCdf n p (binomPpf n p q) := by
  rcases binomPpf_mem n p q with h | h
  · exact h
  · have : binomPpf n p q = n := le_antisymm (binomPpf_le n p q) h
    rw [this, binomCdf_full]
    exact hq

theorem binomPpf_below (n : ℕ) (p q : ℝ) (k : ℕ) (h : k < binomPpf n p q) : binomCdf n p k < q := by
  have := Nat.notMem_of_lt_sInf h
  simp only [Set.mem_ofPred_eq, not_or, not_le] at this
  exact this.1

theorem prob_le (μ : Measure ℝ) [IsProbabilityMeasure μ] (n : ℕ) (t p : ℝ) (hp : μ.real (Set.Iic t) = p) (k : ℕ) (hk : k ≤ n) :
    (Measure.pi fun _ : Fin n => μ).real {ω | (atMost t ω).card ≤ k} = binomCdf n p k := by
  rw [prob_count μ t p hp (fun j => j ≤ k), ← Finset.sum_filter]
  unfold binomCdf
  apply Finset.sum_congr _ fun _ _ => rfl
  ext j
  simp
  omega

theorem measurable_card (n : ℕ) (t : ℝ) (P : ℕ → Prop) [DecidablePred P] : MeasurableSet {ω : Fin n → ℝ | P (atMost t ω).card} := by
  have he : {ω : Fin n → ℝ | P (atMost t ω).card} = ⋃ S ∈ Finset.univ.filter (fun S : Finset (Fin n) => P S.card), {ω | atMost t ω = S} := by
    ext ω
    simp
  rw [he]
  exact Finset.measurableSet_biUnion _ fun S _ => measurable_atMost t S

/-! ## PIT-ECDF -/

/-- **C94 (PIT-ECDF, points).**  The ranks run from 0 to 1 in steps of `1 / n`; at each the curve is the share of the transforms that do not exceed it,
so it does not decrease and ends at 1. -/
theorem C94_ecdf (pit : List ℝ) (hne : pit ≠ []) (h1 : ∀ p ∈ pit, p ≤ 1) (cl : ℝ) :
    (pitEcdf pit cl false).map (·.x) = (List.range (pit.length + 1)).map (fun (i : ℕ) => (i : ℝ) / pit.length) ∧
    (∀ pt ∈ pitEcdf pit cl false, pt.line = pt.x ∧ pt.y = ((pit.filter fun p => decide (p ≤ pt.x)).length : ℝ) / pit.length) ∧
    (pitEcdf pit cl false).Pairwise (fun a b => a.x < b.x ∧ a.y ≤ b.y) ∧ ((pitEcdf pit cl false).getLast?.map (·.y)) = some 1 := by
  have hpos : 0 < pit.length := List.length_pos_iff.2 hne
  have hR : (0 : ℝ) < pit.length := by exact_mod_cast hpos
  have hy : ∀ x, (pitPoint pit cl false x).y = ecdf pit x := fun x => rfl
  have hx : ∀ x, (pitPoint pit cl false x).x = x := fun x => rfl
  refine ⟨?_, ?_, ?_, ?_⟩
  · unfold pitEcdf scaledRank
    rw [List.map_map, List.map_map]
    rfl
  · intro pt hpt
    unfold pitEcdf at hpt
    obtain ⟨x, -, rfl⟩ := List.mem_map.1 hpt
    exact ⟨rfl, by rw [hy, hx, ecdf, List.countP_eq_length_filter]⟩
  · unfold pitEcdf scaledRank
    rw [List.map_map, List.pairwise_map]
    refine List.pairwise_lt_range.imp ?_
    intro a b hab
    have hlt : (a : ℝ) / pit.length < b / pit.length := div_lt_div_of_pos_right (by exact_mod_cast hab) hR
    refine ⟨hlt, ?_⟩
    show ecdf pit (a / pit.length) ≤ ecdf pit (b / pit.length)
    unfold ecdf
    apply div_le_div_of_nonneg_right _ hR.le
    exact_mod_cast List.countP_mono_left (fun p _ hp => by
      simp only [decide_eq_true_eq] at *
      linarith)
  · unfold pitEcdf scaledRank
    rw [List.range_succ, List.map_append, List.map_append, List.getLast?_append]
    simp only [List.map_cons, List.map_nil, List.getLast?_singleton, Option.some_or, Option.map_some]
    rw [hy, ecdf, div_self hR.ne']
    have : pit.countP (fun p => decide (p ≤ 1)) = pit.length := by
      rw [List.countP_eq_length]
      intro p hp
      exact decide_eq_true (h1 p hp)
    rw [this, div_self hR.ne']

/-- The distribution function of three probability integral transforms ends at one. -/
example : ((pitEcdf [0.2, 0.9, 0.5] 0.95 false).getLast?.map (·.y)) = some 1 :=
  (C94_ecdf [0.2, 0.9, 0.5] (by simp) (by intro p hp; simp only [List.mem_cons, List.not_mem_nil, or_false] at hp; rcases hp with rfl | rfl | rfl <;> norm_num) 0.95).2.2.2

/-- **C94 (detrended).**  Detrending moves the curve, the line and the band of every rank down by the rank: a point is in the band of the detrended plot
exactly when it is in the band of the plain one. -/
theorem C94_pit_detrend (pit : List ℝ) (cl : ℝ) :
    List.Forall₂ (fun a b => a.x = b.x ∧ b.line = 0 ∧ b.y = a.y - a.line ∧ b.lower = a.lower - a.line ∧ b.upper = a.upper - a.line ∧
      (a.lower ≤ a.y ∧ a.y ≤ a.upper ↔ b.lower ≤ b.y ∧ b.y ≤ b.upper)) (pitEcdf pit cl false) (pitEcdf pit cl true) := by
  unfold pitEcdf
  rw [List.forall₂_map_left_iff, List.forall₂_map_right_iff]
  rw [List.forall₂_same]
  intro x _
  refine ⟨rfl, rfl, rfl, rfl, rfl, ?_⟩
  show _ ↔ _ - x ≤ _ - x ∧ _ - x ≤ _ - x
  rw [sub_le_sub_iff_right, sub_le_sub_iff_right]
  rfl

/-- **C94 (PIT-ECDF, band).**  If the transforms are independent and uniform, the curve is within the band at any given rank with probability at least
`cl`. -/
theorem C94_pit_cover (μ : Measure ℝ) [IsProbabilityMeasure μ] (hμ : ∀ x, 0 ≤ x → x ≤ 1 → μ.real (Set.Iic x) = x) (n : ℕ) (hn : 0 < n)
    (cl : ℝ) (h1 : cl < 1) (x : ℝ) (hx : x ∈ scaledRank n) :
    cl ≤ (Measure.pi fun _ : Fin n => μ).real
      {ω | ∀ pt ∈ pitEcdf (List.ofFn ω) cl false, pt.x = x → pt.lower ≤ pt.y ∧ pt.y ≤ pt.upper} := by
  have hR : (0 : ℝ) < n := by exact_mod_cast hn
  have hx01 : 0 ≤ x ∧ x ≤ 1 := by
    unfold scaledRank at hx
    obtain ⟨i, hi, rfl⟩ := List.mem_map.1 hx
    rw [List.mem_range] at hi
    have : (i : ℝ) ≤ n := by exact_mod_cast (by omega : i ≤ n)
    exact ⟨by positivity, by rw [div_le_one hR]; exact this⟩
  have hset : {ω : Fin n → ℝ | ∀ pt ∈ pitEcdf (List.ofFn ω) cl false, pt.x = x → pt.lower ≤ pt.y ∧ pt.y ≤ pt.upper} =
      {ω | (binomInterval cl n x).1 ≤ (atMost x ω).card ∧ (atMost x ω).card ≤ (binomInterval cl n x).2} := by
    ext ω
    simp only [Set.mem_ofPred_eq]
    have hiff : ((pitPoint (List.ofFn ω) cl false x).lower ≤ (pitPoint (List.ofFn ω) cl false x).y ∧ (pitPoint (List.ofFn ω) cl false x).y ≤ (pitPoint (List.ofFn ω) cl false x).upper) ↔
        ((binomInterval cl n x).1 ≤ (atMost x ω).card ∧ (atMost x ω).card ≤ (binomInterval cl n x).2) := by
      show ((_ : ℝ) / _ ≤ ecdf (List.ofFn ω) x ∧ ecdf (List.ofFn ω) x ≤ _ / _) ↔ _
      unfold ecdf
      rw [countP_ofFn, List.length_ofFn, div_le_div_iff_of_pos_right hR, div_le_div_iff_of_pos_right hR]
      exact_mod_cast Iff.rfl
    rw [← hiff]
    constructor
    · intro h
      refine h (pitPoint (List.ofFn ω) cl false x) ?_ rfl
      unfold pitEcdf
      rw [List.length_ofFn]
      exact List.mem_map_of_mem hx
    · intro h pt hpt hptx
      unfold pitEcdf at hpt
      obtain ⟨x', -, rfl⟩ := List.mem_map.1 hpt
      have : x' = x := hptx
      subst this
      exact h
  rw [hset]
  have hp := hμ x hx01.1 hx01.2
  set lo := (binomInterval cl n x).1 with hlo
  set up := (binomInterval cl n x).2 with hup
  have hup_n : up ≤ n := binomPpf_le n x _
  have hlo_n : lo ≤ n := binomPpf_le n x _
  have hcu : (1 + cl) / 2 ≤ binomCdf n x up := binomPpf_spec n x _ (by linarith)
  have hPu : (Measure.pi fun _ : Fin n => μ).real {ω | (atMost x ω).card ≤ up} = binomCdf n x up := prob_le μ n x x hp up hup_n
  have hsub : {ω : Fin n → ℝ | (atMost x ω).card ≤ up} ⊆ {ω | lo ≤ (atMost x ω).card ∧ (atMost x ω).card ≤ up} ∪ {ω | (atMost x ω).card < lo} := by
    intro ω h
    simp only [Set.mem_union, Set.mem_ofPred_eq] at *
    omega
  have hle := (measureReal_mono (μ := Measure.pi fun _ : Fin n => μ) hsub).trans (measureReal_union_le _ _)
  have hlow : (Measure.pi fun _ : Fin n => μ).real {ω | (atMost x ω).card < lo} ≤ (1 - cl) / 2 := by
    rcases Nat.eq_zero_or_pos lo with hz | hz
    · have : {ω : Fin n → ℝ | (atMost x ω).card < lo} = ∅ := by
        ext ω
        simp [hz]
      rw [this, measureReal_empty]
      linarith
    · have : {ω : Fin n → ℝ | (atMost x ω).card < lo} = {ω | (atMost x ω).card ≤ lo - 1} := by
        ext ω
        simp only [Set.mem_ofPred_eq]
        omega
      rw [this, prob_le μ n x x hp (lo - 1) (by omega)]
      exact (binomPpf_below n x _ (lo - 1) (by rw [hlo] at hz ⊢; exact Nat.sub_lt hz one_pos)).le
  rw [hPu] at hle
  linarith

/-! ## Q-Q -/

theorem pi8 : 0 < Real.pi / 8 ∧ Real.pi / 8 ≤ 1 / 2 := by
  have := Real.pi_pos
  have := Real.pi_le_four
  constructor <;> linarith

/-- **C94 (positions).**  The plotting positions are probabilities, increase strictly and are symmetric about one half. -/
theorem C94_positions (n i j : ℕ) (hi : i < n) : 0 < plotPos n i ∧ plotPos n i < 1 ∧ (i < j → plotPos n i < plotPos n j) ∧ plotPos n i + plotPos n (n - 1 - i) = 1 := by
  obtain ⟨p0, p1⟩ := pi8
  have hin : (i : ℝ) + 1 ≤ n := by exact_mod_cast hi
  have hd : (0 : ℝ) < (n : ℝ) - 2 * (Real.pi / 8) + 1 := by
    have : (0 : ℝ) ≤ i := by positivity
    linarith
  unfold plotPos
  refine ⟨div_pos (by have : (0 : ℝ) ≤ i := by positivity
                      linarith) hd, by rw [div_lt_one hd]; linarith, fun hij => ?_, ?_⟩
  · apply div_lt_div_of_pos_right _ hd
    have : (i : ℝ) < j := by exact_mod_cast hij
    linarith
  · have : ((n - 1 - i : ℕ) : ℝ) = n - 1 - i := by
      rw [Nat.cast_sub (by omega), Nat.cast_sub (by omega)]
      norm_num
    rw [this, ← add_div, div_eq_one_iff_eq hd.ne']
    ring

example : 0 < plotPos 5 2 ∧ plotPos 5 2 < 1 ∧ plotPos 5 2 < plotPos 5 3 :=
  let h := C94_positions 5 2 3 (by norm_num); ⟨h.1, h.2.1, h.2.2.1 (by norm_num)⟩

theorem minus_getElem? (a t : List ℝ) (i : ℕ) (x y : ℝ) (h1 : a[i]? = some x) (h2 : t[i]? = some y) : (minus a t)[i]? = some (x - y) :=
  List.getElem?_zipWith_eq_some.2 ⟨x, y, h1, h2, rfl⟩

theorem qqPlain_q (ppf : ℝ → ℝ) (beta : ℝ → ℕ → ℕ → ℝ) (q : List ℝ) (cl : ℝ) (qsim : Option (List (List ℝ))) (r : QQ) (h : qqPlain ppf beta q cl qsim = .ok r) :
    r.theor = (List.range q.length).map (fun i => ppf (plotPos q.length i)) ∧ r.q = sorted q := by
  cases qsim with
  | none =>
    obtain rfl := Except.ok.inj h
    exact ⟨rfl, rfl⟩
  | some sims =>
    simp only [qqPlain] at h
    rcases hm : (List.range q.length).mapM (fun k => simQuantiles sims cl k) with e | rows
    · rw [hm] at h
      simp [bind, Except.bind] at h
    · rw [hm] at h
      obtain rfl := Except.ok.inj h
      exact ⟨rfl, rfl⟩

/-- **C94 (points).**  Every residual is shown once, the smallest against the smallest theoretical quantile and so on. -/
theorem C94_points (ppf : ℝ → ℝ) (hppf : ∀ p q, 0 < p → p < q → q < 1 → ppf p < ppf q) (beta : ℝ → ℕ → ℕ → ℝ) (q : List ℝ) (cl : ℝ) (qsim : Option (List (List ℝ))) (r : QQ)
    (h : getQQ ppf beta q false cl qsim = .ok r) :
    r.theor.length = q.length ∧ r.q.Perm q ∧ r.q.Pairwise (· ≤ ·) ∧ r.theor.Pairwise (· < ·) ∧
      ∀ (i : ℕ) t, r.theor[i]? = some t → t = ppf (plotPos q.length i) := by
  have hp : qqPlain ppf beta q cl qsim = .ok r := by
    unfold getQQ at h
    rcases hq : qqPlain ppf beta q cl qsim with e | r'
    · rw [hq] at h
      simp [bind, Except.bind] at h
    · rw [hq] at h
      simpa [bind, Except.bind, pure, Except.pure] using h
  obtain ⟨e1, e2⟩ := qqPlain_q ppf beta q cl qsim r hp
  refine ⟨by simp [e1], by rw [e2]; exact sorted_perm q, by rw [e2]; exact sorted_pairwise q, ?_, ?_⟩
  · rw [e1, List.pairwise_map]
    refine List.pairwise_lt_range.imp_of_mem ?_
    intro a b ha hb hab
    rw [List.mem_range] at ha hb
    obtain ⟨h0, -, hlt, -⟩ := C94_positions q.length a b ha
    exact hppf _ _ h0 (hlt hab) (C94_positions q.length b 0 hb).2.1
  · intro i t hi
    rw [e1, List.getElem?_map] at hi
    obtain ⟨k, hk, rfl⟩ := Option.map_eq_some_iff.1 hi
    obtain ⟨hl, hk⟩ := List.getElem?_eq_some_iff.1 hk
    rw [List.getElem_range] at hk
    rw [hk]

/-- **C94 (detrended Q-Q).**  Detrending subtracts the theoretical quantile from the residual, the line and the band; whether a residual is within its
band does not change. -/
theorem C94_detrend (ppf : ℝ → ℝ) (beta : ℝ → ℕ → ℕ → ℝ) (q : List ℝ) (cl : ℝ) (qsim : Option (List (List ℝ))) (r : QQ)
    (h : getQQ ppf beta q false cl qsim = .ok r) :
    ∃ d, getQQ ppf beta q true cl qsim = .ok d ∧ d.theor = r.theor ∧
      ∀ (i : ℕ) t x l lo up, r.theor[i]? = some t → r.q[i]? = some x → r.line[i]? = some l → r.lower[i]? = some lo → r.upper[i]? = some up →
        d.q[i]? = some (x - t) ∧ d.line[i]? = some (l - t) ∧ d.lower[i]? = some (lo - t) ∧ d.upper[i]? = some (up - t) ∧
        (lo ≤ x ∧ x ≤ up ↔ lo - t ≤ x - t ∧ x - t ≤ up - t) := by
  have hp : qqPlain ppf beta q cl qsim = .ok r := by
    unfold getQQ at h
    rcases hq : qqPlain ppf beta q cl qsim with e | r'
    · rw [hq] at h
      simp [bind, Except.bind] at h
    · rw [hq] at h
      simpa [bind, Except.bind, pure, Except.pure] using h
  refine ⟨r.detrend, ?_, rfl, ?_⟩
  · unfold getQQ
    rw [hp]
    rfl
  · intro i t x l lo up h1 h2 h3 h4 h5
    refine ⟨minus_getElem? _ _ i x t h2 h1, minus_getElem? _ _ i l t h3 h1, minus_getElem? _ _ i lo t h4 h1, minus_getElem? _ _ i up t h5 h1, ?_⟩
    rw [sub_le_sub_iff_right, sub_le_sub_iff_right]

/-- `x` is the `k`-th smallest (counted from 0) of `row`: it occurs, at most `k` are smaller, and more than `k` are not larger. -/
def KthSmallest (k : ℕ) (row : List ℝ) (x : ℝ) : Prop :=
  x ∈ row ∧ row.countP (fun y => decide (y < x)) ≤ k ∧ k < row.countP (fun y => decide (y ≤ x))

theorem sorted_kth (row : List ℝ) (k : ℕ) (hk : k < row.length) : KthSmallest k row ((sorted row).getD k 0) := by
  have hl : k < (sorted row).length := by rw [sorted_length]; exact hk
  have hget : (sorted row).getD k 0 = (sorted row)[k] := by rw [List.getD_eq_getElem?_getD, List.getElem?_eq_getElem hl]; rfl
  have hp := sorted_pairwise row
  rw [List.pairwise_iff_getElem] at hp
  have key : ∀ q : ℝ → Bool, row.countP q = (sorted row).countP q := fun q => ((sorted_perm row).countP_eq q).symm
  refine ⟨(sorted_perm row).mem_iff.1 (hget ▸ List.getElem_mem hl), ?_, ?_⟩
  · rw [key, ← List.take_append_drop k (sorted row), List.countP_append]
    have h0 : ((sorted row).drop k).countP (fun y => decide (y < ((sorted row).take k ++ (sorted row).drop k).getD k 0)) = 0 := by
      rw [List.take_append_drop, List.countP_eq_zero]
      intro y hy
      obtain ⟨i, hi, rfl⟩ := List.mem_iff_getElem.1 hy
      rw [List.getElem_drop, hget]
      simp only [decide_eq_true_eq, not_lt]
      rcases Nat.eq_zero_or_pos i with rfl | hi0
      · simp
      · exact hp k (k + i) hl (by rw [List.length_drop] at hi; omega) (by omega)
    rw [h0]
    refine le_trans List.countP_le_length ?_
    rw [List.length_take]
    omega
  · rw [key, ← List.take_append_drop (k + 1) (sorted row), List.countP_append]
    have h1 : ((sorted row).take (k + 1)).countP (fun y => decide (y ≤ ((sorted row).take (k + 1) ++ (sorted row).drop (k + 1)).getD k 0)) =
        ((sorted row).take (k + 1)).length := by
      rw [List.take_append_drop, List.countP_eq_length]
      intro y hy
      obtain ⟨i, hi, rfl⟩ := List.mem_iff_getElem.1 hy
      rw [List.getElem_take, hget]
      simp only [decide_eq_true_eq]
      rw [List.length_take] at hi
      rcases Nat.lt_or_ge i k with h | h
      · exact hp i k (by omega) hl h
      · have : i = k := by omega
        subst this; exact le_rfl
    rw [h1, List.length_take]
    omega

/-- **C94 (simulated band).**  With simulated residuals, the line and the band at the `k`-th point are the median and the interval of the `k`-th smallest residuals of
the simulations; the interval holds more than `cl (m - 1) - 1` of the `m` simulations. -/
theorem C94_sim_band (ppf : ℝ → ℝ) (beta : ℝ → ℕ → ℕ → ℝ) (q : List ℝ) (cl : ℝ) (h0 : 0 < cl) (h1 : cl < 1) (sims : List (List ℝ)) (hne : sims ≠ [])
    (hrow : ∀ row ∈ sims, row.length = q.length) :
    ∃ r, getQQ ppf beta q false cl (some sims) = .ok r ∧ r.line.length = q.length ∧
      ∀ k, k < q.length → ∃ xs, List.Forall₂ (KthSmallest k) sims xs ∧
        ∃ m lo up, r.line[k]? = some m ∧ r.lower[k]? = some lo ∧ r.upper[k]? = some up ∧ lo ≤ m ∧ m ≤ up ∧
        quantile xs 0.5 = .ok m ∧ band xs cl = .ok (lo, up) ∧
        cl * ((sims.length : ℝ) - 1) - 1 < inside lo up xs := by
  have hos : ∀ k, orderStat sims k ≠ [] := by
    intro k
    unfold orderStat
    simpa using hne
  have hlen : ∀ k, (orderStat sims k).length = sims.length := by
    intro k
    unfold orderStat
    simp
  have hk : ∀ k, ∃ m lo up, simQuantiles sims cl k = .ok (m, lo, up) ∧ lo ≤ m ∧ m ≤ up ∧ quantile (orderStat sims k) 0.5 = .ok m ∧
      band (orderStat sims k) cl = .ok (lo, up) ∧ cl * ((sims.length : ℝ) - 1) - 1 < inside lo up (orderStat sims k) := by
    intro k
    obtain ⟨m, lo, up, a1, a2, a3, a4, -, -, a5⟩ := C93_band (orderStat sims k) (hos k) cl h0 h1
    refine ⟨m, lo, up, ?_, a3, a4, a1, a2, by rw [← hlen k]; exact a5⟩
    obtain ⟨Q, hQ, -⟩ := C48_quantile (orderStat sims k) (hos k)
    have e1 : (0.5 + cl * (-0.5) : ℝ) = 0.5 - 0.5 * cl := by ring
    have e2 : (0.5 + cl * 0.5 : ℝ) = 0.5 + 0.5 * cl := by ring
    have q1 := hQ (0.5 - 0.5 * cl) (by norm_num; linarith) (by norm_num; linarith)
    have q2 := hQ (0.5 + 0.5 * cl) (by positivity) (by norm_num; linarith)
    simp only [band, e1, e2, q1, q2, bind, Except.bind, pure, Except.pure, Except.ok.injEq, Prod.mk.injEq] at a2
    simp only [simQuantiles, a1, q1, q2, bind, Except.bind, pure, Except.pure, a2.1, a2.2]
  choose m lo up hs using hk
  have hmap : (List.range q.length).mapM (fun k => simQuantiles sims cl k) = .ok ((List.range q.length).map fun k => (m k, lo k, up k)) := by
    generalize List.range q.length = l
    induction l with
    | nil => rfl
    | cons a l ih => rw [List.mapM_cons, (hs a).1, ih]; rfl
  refine ⟨⟨(List.range q.length).map fun i => ppf (plotPos q.length i), sorted q, (List.range q.length).map m, (List.range q.length).map lo, (List.range q.length).map up⟩, ?_, by simp, ?_⟩
  · simp only [getQQ, qqPlain, hmap, bind, Except.bind, pure, Except.pure, List.map_map]
    rfl
  · intro k hk
    refine ⟨orderStat sims k, ?_, m k, lo k, up k, ?_, ?_, ?_, (hs k).2⟩
    · rw [orderStat, List.forall₂_map_right_iff, List.forall₂_same]
      exact fun row hr => sorted_kth row k (by rw [hrow row hr]; exact hk)
    · simp [hk]
    · simp [hk]
    · simp [hk]

/-- Three simulations of two residuals: the band exists, and the curve has as many points as residuals. -/
example (ppf : ℝ → ℝ) (beta : ℝ → ℕ → ℕ → ℝ) : ∃ r, getQQ ppf beta [1, -1] false 0.95 (some [[0, 1], [-1, 2], [0.5, 0.7]]) = .ok r ∧ r.line.length = 2 := by
  obtain ⟨r, h, hl, _⟩ := C94_sim_band ppf beta [1, -1] 0.95 (by norm_num) (by norm_num) [[0, 1], [-1, 2], [0.5, 0.7]] (by simp) (by simp)
  exact ⟨r, h, hl⟩

/-- The points of such a figure are the residuals in increasing order (`C94_points`), and the detrended figure has the same abscissas (`C94_detrend`). -/
example (beta : ℝ → ℕ → ℕ → ℝ) : ∃ r d, getQQ (fun p => p) beta [1, -1] false 0.95 (some [[0, 1], [-1, 2], [0.5, 0.7]]) = .ok r ∧
    r.q.Perm [1, -1] ∧ r.q.Pairwise (· ≤ ·) ∧
    getQQ (fun p => p) beta [1, -1] true 0.95 (some [[0, 1], [-1, 2], [0.5, 0.7]]) = .ok d ∧ d.theor = r.theor := by
  obtain ⟨r, h, _⟩ := C94_sim_band (fun p => p) beta [1, -1] 0.95 (by norm_num) (by norm_num) [[0, 1], [-1, 2], [0.5, 0.7]] (by simp) (by simp)
  obtain ⟨_, h1, h2, _⟩ := C94_points (fun p => p) (fun _ _ _ h _ => h) beta [1, -1] 0.95 _ r h
  obtain ⟨d, h3, h4, _⟩ := C94_detrend (fun p => p) beta [1, -1] 0.95 _ r h
  exact ⟨r, d, h, h1, h2, h3, h4⟩

/-- **C94 (theoretical band).**  Without simulations the line is the theoretical quantiles, and for independent residuals of the theoretical distribution the `k`-th
smallest is above the lower and not above the upper end of its band with probability `cl`.  `beta` is the quantile function of the distribution of the `k`-th smallest
of `n` uniform numbers, given by its relation to the binomial distribution. -/
theorem C94_theor_band (μ : Measure ℝ) [IsProbabilityMeasure μ] (ppf : ℝ → ℝ) (hppf : ∀ p, 0 < p → p < 1 → μ.real (Set.Iic (ppf p)) = p)
    (beta : ℝ → ℕ → ℕ → ℝ)
    (hbeta : ∀ p a b, 0 < p → p < 1 → 0 < a → 0 < b → 0 < beta p a b ∧ beta p a b < 1 ∧ 1 - binomCdf (a + b - 1) (beta p a b) (a - 1) = p)
    (n k : ℕ) (hk : k < n) (cl : ℝ) (h0 : 0 < cl) (h1 : cl < 1) :
    cl ≤ (Measure.pi fun _ : Fin n => μ).real {ω | ∃ r x lo up, getQQ ppf beta (List.ofFn ω) false cl none = .ok r ∧ r.q[k]? = some x ∧
      r.line = r.theor ∧ r.lower[k]? = some lo ∧ r.upper[k]? = some up ∧ lo < x ∧ x ≤ up} := by
  set bl := beta (0.5 - cl * 0.5) (k + 1) (n + 1 - (k + 1)) with hbl
  set bu := beta (0.5 + cl * 0.5) (k + 1) (n + 1 - (k + 1)) with hbu
  obtain ⟨l0, l1, l2⟩ := hbeta (0.5 - cl * 0.5) (k + 1) (n + 1 - (k + 1)) (by norm_num; linarith) (by norm_num; linarith) (by omega) (by omega)
  obtain ⟨u0, u1, u2⟩ := hbeta (0.5 + cl * 0.5) (k + 1) (n + 1 - (k + 1)) (by positivity) (by norm_num; linarith) (by omega) (by omega)
  have hnn : k + 1 + (n + 1 - (k + 1)) - 1 = n := by omega
  rw [hnn, Nat.add_sub_cancel] at l2 u2
  have hset : {ω : Fin n → ℝ | k < (atMost (ppf bu) ω).card ∧ ¬ k < (atMost (ppf bl) ω).card} ⊆ {ω | ∃ r x lo up, getQQ ppf beta (List.ofFn ω) false cl none = .ok r ∧ r.q[k]? = some x ∧
      r.line = r.theor ∧ r.lower[k]? = some lo ∧ r.upper[k]? = some up ∧ lo < x ∧ x ≤ up} := by
    rintro ω ⟨hu, hl⟩
    have hlen : (sorted (List.ofFn ω)).length = n := by rw [sorted_length, List.length_ofFn]
    have hkl : k < (sorted (List.ofFn ω)).length := by omega
    have key : ∀ t, (sorted (List.ofFn ω))[k] ≤ t ↔ k < (atMost t ω).card := by
      intro t
      have := sorted_countP (sorted (List.ofFn ω)) (sorted_pairwise _) (fun x => decide (x ≤ t))
        (fun x y hxy hy => by simp only [decide_eq_true_eq] at *; linarith) k hkl
      rw [(sorted_perm (List.ofFn ω)).countP_eq, countP_ofFn] at this
      simpa using this
    refine ⟨_, (sorted (List.ofFn ω))[k], ppf bl, ppf bu, rfl, List.getElem?_eq_getElem hkl, rfl, ?_, ?_, ?_, (key _).2 hu⟩
    · simp [hk, hbl]
    · simp [hk, hbu]
    · exact not_le.1 fun h => hl ((key _).1 h)
  refine le_trans ?_ (measureReal_mono hset)
  have hdiff : {ω : Fin n → ℝ | k < (atMost (ppf bu) ω).card ∧ ¬ k < (atMost (ppf bl) ω).card} = {ω | k < (atMost (ppf bu) ω).card} \ {ω | k < (atMost (ppf bl) ω).card} := rfl
  have hmono : (Measure.pi fun _ : Fin n => μ).real {ω | k < (atMost (ppf bu) ω).card} ≤
      (Measure.pi fun _ : Fin n => μ).real {ω : Fin n → ℝ | k < (atMost (ppf bu) ω).card ∧ ¬ k < (atMost (ppf bl) ω).card} +
      (Measure.pi fun _ : Fin n => μ).real {ω : Fin n → ℝ | k < (atMost (ppf bl) ω).card} := by
    refine (measureReal_mono ?_).trans (measureReal_union_le _ _)
    intro ω h
    simp only [Set.mem_union, Set.mem_ofPred_eq] at *
    tauto
  have hgt : ∀ t p, μ.real (Set.Iic t) = p → (Measure.pi fun _ : Fin n => μ).real {ω : Fin n → ℝ | k < (atMost t ω).card} = 1 - binomCdf n p k := by
    intro t p hp
    have hc : {ω : Fin n → ℝ | k < (atMost t ω).card} = {ω | (atMost t ω).card ≤ k}ᶜ := by
      ext ω
      simp
    rw [hc, measureReal_compl (measurable_card n t (fun j => j ≤ k)), prob_le μ n t p hp k hk.le]
    simp
  rw [hgt _ _ (hppf bu u0 u1), hgt _ _ (hppf bl l0 l1), u2, l2] at hmono
  linarith

/-! ## Goodness of fit -/

theorem gof_point (sim : List ℝ) (k : ℕ) (hk : k < sim.length) :
    (gofCurve sim)[k]? = some ((sorted sim).getD k 0, 1 - ((k : ℝ) + 1) / sim.length) := by
  have hl : k < (sorted sim).length := by rw [sorted_length]; exact hk
  unfold gofCurve
  rw [List.getElem?_zip_eq_some, getD_lt _ _ hl]
  exact ⟨List.getElem?_eq_getElem hl, by simp [hk]⟩

/-- **C94 (goodness of fit, part that holds).**  To the right of a point of the curve, up to the next, the height of the point is the p-value: the share of the simulations that
reach the deviance.  The text beside the curve is the p-value, or says that it is below `1 / n` when no simulation reaches the observation.  (Missing: at the points themselves,
`C94_gof_refuted`.) -/
theorem C94_gof_partial (sim : List ℝ) (k : ℕ) (hk : k + 1 < sim.length) (D : ℝ) (h1 : (sorted sim).getD k 0 < D) (h2 : D ≤ (sorted sim).getD (k + 1) 0) :
    pValue D sim = some (1 - ((k : ℝ) + 1) / sim.length) ∧ (gofCurve sim)[k]? = some ((sorted sim).getD k 0, 1 - ((k : ℝ) + 1) / sim.length) := by
  refine ⟨?_, gof_point sim k (by omega)⟩
  have hlen := sorted_length sim
  have hR : (0 : ℝ) < sim.length := by exact_mod_cast (by omega : 0 < sim.length)
  have hlt : sim.countP (fun x => decide (x < D)) = k + 1 := by
    rw [← (sorted_perm sim).countP_eq]
    have hc : ∀ j (hj : j < (sorted sim).length), decide ((sorted sim)[j] < D) = true ↔ j < (sorted sim).countP (fun x => decide (x < D)) :=
      sorted_countP (sorted sim) (sorted_pairwise sim) (fun x => decide (x < D)) (fun x y hxy hy => by simp only [decide_eq_true_eq] at *; linarith)
    rw [getD_lt _ _ (by omega)] at h1 h2
    have a := (hc k (by omega)).1 (decide_eq_true h1)
    have b : ¬ (k + 1 < (sorted sim).countP (fun x => decide (x < D))) := fun h => by
      have := (hc (k + 1) (by omega)).2 h
      simp only [decide_eq_true_eq] at this
      linarith
    omega
  have hsum := List.length_eq_countP_add_countP (fun x => decide (x < D)) (l := sim)
  have hge : sim.countP (fun x => decide (D ≤ x)) = sim.length - (k + 1) := by
    have : (fun x : ℝ => decide (D ≤ x)) = (fun x => decide ¬ (decide (x < D) = true)) := by
      funext x
      simp
    rw [this]
    omega
  unfold pValue
  rw [if_neg (by omega), hge, Nat.cast_sub (by omega)]
  congr 1
  field_simp
  push_cast
  ring

/-- The axis says `P(D >= d)`, but at a simulated deviance the curve shows the share of the simulations above it: `1 / n` too little; at the largest it shows zero, which
a logarithmic axis cannot show. -/
theorem C94_gof_refuted (sim : List ℝ) (hd : sim.Nodup) (k : ℕ) (hk : k < sim.length) :
    ∃ d h p, (gofCurve sim)[k]? = some (d, h) ∧ pValue d sim = some p ∧ h = p - 1 / sim.length ∧ (k + 1 = sim.length → h = 0) := by
  have hlen := sorted_length sim
  have hR : (0 : ℝ) < sim.length := by exact_mod_cast (by omega : 0 < sim.length)
  have hkl : k < (sorted sim).length := by omega
  refine ⟨(sorted sim).getD k 0, 1 - ((k : ℝ) + 1) / sim.length, 1 - (k : ℝ) / sim.length, gof_point sim k hk, ?_, ?_, ?_⟩
  · have hnd : (sorted sim).Nodup := (sorted_perm sim).nodup_iff.2 hd
    have hlt : sim.countP (fun x => decide (x < (sorted sim).getD k 0)) = k := by
      rw [← (sorted_perm sim).countP_eq, getD_lt _ _ hkl]
      have hc : ∀ j (hj : j < (sorted sim).length), decide ((sorted sim)[j] < (sorted sim)[k]) = true ↔ j < (sorted sim).countP (fun x => decide (x < (sorted sim)[k])) :=
        sorted_countP (sorted sim) (sorted_pairwise sim) (fun x => decide (x < (sorted sim)[k])) (fun x y hxy hy => by simp only [decide_eq_true_eq] at *; linarith)
      have b : ¬ (k < (sorted sim).countP (fun x => decide (x < (sorted sim)[k]))) := fun h => by
        have := (hc k hkl).2 h
        simp at this
      rcases Nat.eq_zero_or_pos k with hz | hz
      · omega
      · have hstrict : (sorted sim)[k - 1] < (sorted sim)[k] := by
          have hle := List.pairwise_iff_getElem.1 (sorted_pairwise sim) (k - 1) k (by omega) hkl (by omega)
          have hne : (sorted sim)[k - 1] ≠ (sorted sim)[k] := fun h => by
            have := (List.Nodup.getElem_inj_iff hnd).1 h
            omega
          exact lt_of_le_of_ne hle hne
        have := (hc (k - 1) (by omega)).1 (decide_eq_true hstrict)
        omega
    have hsum := List.length_eq_countP_add_countP (fun x => decide (x < (sorted sim).getD k 0)) (l := sim)
    have hge : sim.countP (fun x => decide ((sorted sim).getD k 0 ≤ x)) = sim.length - k := by
      have : (fun x : ℝ => decide ((sorted sim).getD k 0 ≤ x)) = (fun x => decide ¬ (decide (x < (sorted sim).getD k 0) = true)) := by
        funext x
        simp
      rw [this]
      omega
    unfold pValue
    rw [if_neg (by omega), hge, Nat.cast_sub (by omega)]
    congr 1
    field_simp
  · field_simp
    ring
  · intro h
    have : ((k : ℝ) + 1) = sim.length := by exact_mod_cast h
    rw [this, div_self hR.ne', sub_self]

example : ∃ d h p, (gofCurve [3, 1, 2])[2]? = some (d, h) ∧ pValue d [3, 1, 2] = some p ∧ h = 0 := by
  obtain ⟨d, h, p, h1, h2, _, h3⟩ := C94_gof_refuted [3, 1, 2] (by norm_num) 2 (by simp)
  exact ⟨d, h, p, h1, h2, h3 rfl⟩

/-- What is written beside the curve is true: the p-value, or that it is below `1 / n`. -/
theorem C94_text (obs : ℝ) (sim : List ℝ) (p : ℝ) (h : pValue obs sim = some p) :
    (∃ x ∈ sim, obs ≤ x) ∧ gofText p sim.length = .equals p ∨ (∀ x ∈ sim, x < obs) ∧ gofText p sim.length = .below sim.length ∧ p < 1 / sim.length := by
  unfold pValue at h
  split_ifs at h with hz
  have hp := Option.some.inj h
  have hR : (0 : ℝ) < sim.length := by exact_mod_cast Nat.pos_of_ne_zero hz
  by_cases hx : ∃ x ∈ sim, obs ≤ x
  · left
    refine ⟨hx, ?_⟩
    have : 0 < sim.countP (fun x => decide (obs ≤ x)) := by
      rw [List.countP_pos_iff]
      obtain ⟨x, a, b⟩ := hx
      exact ⟨x, a, decide_eq_true b⟩
    have : 0 < p := by
      rw [← hp]
      have : (0 : ℝ) < (sim.countP (fun x => decide (obs ≤ x)) : ℕ) := by exact_mod_cast this
      positivity
    unfold gofText
    rw [if_pos this]
  · right
    push Not at hx
    have : sim.countP (fun x => decide (obs ≤ x)) = 0 := by
      rw [List.countP_eq_zero]
      intro x hm
      simp only [decide_eq_true_eq, not_le]
      exact hx x hm
    have hp0 : p = 0 := by rw [← hp, this]; simp
    refine ⟨hx, ?_, by rw [hp0]; positivity⟩
    unfold gofText
    rw [if_neg (by rw [hp0]; simp)]

/-! ## The panel `total` -/

/-- **C94 (total).**  The panel `total` holds the values of all data sets, and every other data set keeps its own.  (Missing: a data set called `total`, `C94_total_refuted`.) -/
theorem C94_total_partial (r : List (String × List ℝ)) (ht : "total" ∉ r.map Prod.fst) :
    (withTotal r).lookup "total" = some (r.flatMap (·.2)) ∧ (∀ k v, r.lookup k = some v → (withTotal r).lookup k = some v) ∧
      (r.flatMap (·.2)).length = (r.map fun kv => kv.2.length).sum := by
  have hany : r.any (fun kv => kv.1 == "total") = false := by
    rw [List.any_eq_false]
    intro kv hkv
    simp only [beq_iff_eq]
    exact fun h => ht (List.mem_map.2 ⟨kv, hkv, h⟩)
  have hw : withTotal r = r ++ [("total", r.flatMap (·.2))] := by
    unfold withTotal
    rw [hany]
    rfl
  have hnone : r.lookup "total" = none := by
    rw [List.lookup_eq_none_iff]
    intro kv hkv
    simp only [ne_eq, bne_iff_ne]
    exact fun h => ht (List.mem_map.2 ⟨kv, hkv, h.symm⟩)
  refine ⟨?_, ?_, ?_⟩
  · rw [hw, List.lookup_append, hnone]
    simp [List.lookup]
  · intro k v hv
    rw [hw, List.lookup_append, hv]
    rfl
  · simp [List.length_flatMap]

example : (withTotal [("A", [1, 2]), ("B", [3])]).lookup "total" = some [1, 2, 3] :=
  (C94_total_partial [("A", [1, 2]), ("B", [3])] (by simp)).1

/-- A data set may be called `total`; its panel then shows the values of all data sets instead of its own. -/
theorem C94_total_refuted : ∃ (r : List (String × List ℝ)) (v : List ℝ), (r.map Prod.fst).Nodup ∧ r.lookup "total" = some v ∧ (withTotal r).lookup "total" ≠ some v := by
  refine ⟨[("a", [1]), ("total", [2])], [2], by simp, by simp [List.lookup], ?_⟩
  simp [withTotal, List.lookup]

/-! ## Non-vacuity -/

example : (pitEcdf [0.5, 0.25] 0.95 false).length = 3 := by simp [pitEcdf, scaledRank]

/-- The uniform distribution meets the hypotheses of `C94_pit_cover`. -/
example : ∃ μ : Measure ℝ, IsProbabilityMeasure μ ∧ ∀ x, 0 ≤ x → x ≤ 1 → μ.real (Set.Iic x) = x := by
  refine ⟨volume.restrict (Set.Icc 0 1), ⟨by simp⟩, fun x h0 h1 => ?_⟩
  rw [Measure.real, Measure.restrict_apply measurableSet_Iic]
  have : Set.Iic x ∩ Set.Icc 0 1 = Set.Icc 0 x := by
    ext y
    simp only [Set.mem_inter_iff, Set.mem_Iic, Set.mem_Icc]
    constructor
    · rintro ⟨a, b, -⟩
      exact ⟨b, a⟩
    · rintro ⟨a, b⟩
      exact ⟨b, a, b.trans h1⟩
  rw [this, Real.volume_Icc, sub_zero, ENNReal.toReal_ofReal h0]

example : pValue 2.5 [1, 3, 2] = some (1 - ((1 : ℝ) + 1) / 3) := by
  have hs : sorted [1, 3, 2] = [1, 2, 3] := by
    unfold sorted
    norm_num [List.insertionSort, List.orderedInsert]
  have := (C94_gof_partial [1, 3, 2] 1 (by simp) 2.5 (by rw [hs]; norm_num) (by rw [hs]; norm_num)).1
  simpa using this

end Elisa.Plot
