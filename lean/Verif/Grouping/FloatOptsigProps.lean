import Verif.Grouping.FloatOptsig
import Verif.Grouping.FloatPrefixProps

/-!
# The optimal grouping with a minimum plain significance in float64 (C158)
-/

namespace Elisa.Grouping.Fl

open Elisa Elisa.Grouping Elisa.Infer.Fl

/-! ## One test -/

/-- A rounded root of a number known up to a share. -/
theorem root_near {rnd} (h : Nearest rnd) {v V r : ℝ} (hV : V = 0 ∨ 2 ^ (-600 : ℤ) ≤ V) (hV2 : V ≤ 2 ^ (640 : ℤ)) (hr : r ≤ 1 / 4) (h0 : |v - V| ≤ r * V) :
    Rep (rnd (Real.sqrt v)) ∧ |rnd (Real.sqrt v) - Real.sqrt V| ≤ (r + 2 * unit) * Real.sqrt V ∧
      (V = 0 ∧ rnd (Real.sqrt v) = 0 ∨ 0 < V ∧ 2 ^ (-301 : ℤ) ≤ rnd (Real.sqrt v) ∧ rnd (Real.sqrt v) ≤ 2 ^ (321 : ℤ)) := by
  have hz : rnd 0 = 0 := h.fix rep_zero (by rw [abs_zero]; exact (two_zpow_pos _).le)
  rcases hV with rfl | hV
  · have : v = 0 := by
      rw [mul_zero, sub_zero] at h0
      exact abs_nonpos_iff.1 h0
    rw [this, Real.sqrt_zero, hz]
    exact ⟨rep_zero, by simp, Or.inl ⟨rfl, rfl⟩⟩
  · have V0 : 0 < V := (two_zpow_pos _).trans_le hV
    have hv := _root_.abs_le.1 h0
    have hrV := mul_le_mul_of_nonneg_right hr V0.le
    have v1 : 2 ^ (-602 : ℤ) ≤ v := by
      have e : (2 : ℝ) ^ (-600 : ℤ) = 4 * 2 ^ (-602 : ℤ) := by
        rw [show (-600 : ℤ) = 2 + -602 by norm_num, zpow_add₀ (by norm_num)]; norm_num
      have := two_zpow_pos (-602)
      rw [e] at hV
      linarith only [hV, hv.1, hrV, this]
    have v2 : v ≤ 2 ^ (642 : ℤ) := by
      have e : (2 : ℝ) ^ (642 : ℤ) = 4 * 2 ^ (640 : ℤ) := by
        rw [show (642 : ℤ) = 2 + 640 by norm_num, zpow_add₀ (by norm_num)]; norm_num
      rw [e]
      clear e
      generalize (2 : ℝ) ^ (640 : ℤ) = z at *
      linarith only [hV2, hv.2, hrV, V0]
    have t1 : (2 : ℝ) ^ (-301 : ℤ) ≤ Real.sqrt v := by
      refine Real.le_sqrt_of_sq_le ?_
      rw [sq, ← zpow_add₀ (by norm_num)]
      exact v1
    have t2 : Real.sqrt v ≤ (2 : ℝ) ^ (321 : ℤ) := by
      refine Real.sqrt_le_iff.2 ⟨(two_zpow_pos _).le, ?_⟩
      rw [sq, ← zpow_add₀ (by norm_num)]
      exact v2
    have t3 := root_share V0 (hr.trans (by norm_num)) h0
    have m1 := h.mem t1 t2 (by norm_num) (by norm_num)
    have e1 := h.rel ⟨t1, t2⟩ (by norm_num) (by norm_num)
    refine ⟨m1.1, ?_, Or.inr ⟨V0, m1.2⟩⟩
    have S0 := Real.sqrt_pos.2 V0
    have hu := unit_pos
    generalize Real.sqrt V = S at *
    generalize Real.sqrt v = s at *
    generalize rnd s = s' at *
    have a1 : s ≤ 2 * S := by
      have := (_root_.abs_le.1 t3).2
      have := mul_le_mul_of_nonneg_right hr S0.le
      linarith
    have := abs_sub_le s' s S
    have := mul_le_mul_of_nonneg_left a1 hu.le
    linarith

/-- `sig * (err + np.sqrt(...))`. -/
theorem limit_two {rnd} (h : Nearest rnd) {sig e1 e2 E1 E2 r : ℝ} (hs : 2 ^ (-30 : ℤ) ≤ sig ∧ sig ≤ 2 ^ (30 : ℤ)) (hr0 : 0 ≤ r) (hr : r ≤ 1 / 4) (h1 : Rep e1) (h2 : Rep e2)
    (d1 : |e1 - E1| ≤ r * E1) (d2 : |e2 - E2| ≤ r * E2) (b1 : E1 = 0 ∧ e1 = 0 ∨ 0 < E1 ∧ 2 ^ (-301 : ℤ) ≤ e1 ∧ e1 ≤ 2 ^ (321 : ℤ))
    (b2 : E2 = 0 ∧ e2 = 0 ∨ 0 < E2 ∧ 2 ^ (-301 : ℤ) ≤ e2 ∧ e2 ≤ 2 ^ (321 : ℤ)) :
    Rep (rnd (sig * rnd (e1 + e2))) ∧ |rnd (sig * rnd (e1 + e2)) - sig * (E1 + E2)| ≤ (r + 4 * unit) * (sig * (E1 + E2)) ∧
      rnd (sig * rnd (e1 + e2)) ≤ 2 ^ (1000 : ℤ) ∧ (0 < rnd (e1 + e2) ↔ 0 < E1 + E2) := by
  have hz : rnd 0 = 0 := h.fix rep_zero (by rw [abs_zero]; exact (two_zpow_pos _).le)
  have sig0 : 0 < sig := (two_zpow_pos _).trans_le hs.1
  have p301 := two_zpow_pos (-301)
  have p321 := two_zpow_pos 321
  by_cases hb : (E1 = 0 ∧ e1 = 0) ∧ (E2 = 0 ∧ e2 = 0)
  · obtain ⟨⟨rfl, rfl⟩, rfl, rfl⟩ := hb
    rw [add_zero, hz, mul_zero, hz]
    exact ⟨rep_zero, by simp, (two_zpow_pos _).le, Iff.rfl⟩
  · have n1 : 0 ≤ e1 ∧ e1 ≤ 2 ^ (321 : ℤ) ∧ 0 ≤ E1 := by
      rcases b1 with ⟨rfl, rfl⟩ | ⟨x, y, z⟩
      · exact ⟨le_refl _, p321.le, le_refl _⟩
      · exact ⟨p301.le.trans y, z, x.le⟩
    have n2 : 0 ≤ e2 ∧ e2 ≤ 2 ^ (321 : ℤ) ∧ 0 ≤ E2 := by
      rcases b2 with ⟨rfl, rfl⟩ | ⟨x, y, z⟩
      · exact ⟨le_refl _, p321.le, le_refl _⟩
      · exact ⟨p301.le.trans y, z, x.le⟩
    have low : 2 ^ (-301 : ℤ) ≤ e1 + e2 ∧ 0 < E1 + E2 := by
      rcases b1 with x | ⟨x, y, -⟩
      · rcases b2 with x' | ⟨x', y', -⟩
        · exact absurd ⟨x, x'⟩ hb
        · exact ⟨by linarith only [n1.1, y'], by linarith only [n1.2.2, x']⟩
      · exact ⟨by linarith only [n2.1, y], by linarith only [n2.2.2, x]⟩
    have high : e1 + e2 ≤ 2 ^ (322 : ℤ) := by
      have e : (2 : ℝ) ^ (322 : ℤ) = 2 * 2 ^ (321 : ℤ) := by
        rw [show (322 : ℤ) = 1 + 321 by norm_num, zpow_add₀ (by norm_num)]; norm_num
      rw [e]
      linarith only [n1.2.1, n2.2.1]
    have m1 := h.mem low.1 high (by norm_num) (by norm_num)
    have r1 := h.rel ⟨low.1, high⟩ (by norm_num) (by norm_num)
    have p1 := mul_in hs m1.2
    have m2 := h.mem p1.1 p1.2 (by norm_num) (by norm_num)
    have r2 := h.rel p1 (by norm_num) (by norm_num)
    refine ⟨m2.1, ?_, m2.2.2.trans (zpow_le (by norm_num)), iff_of_true (p301.trans_le m1.2.1) low.2⟩
    have hu := unit_pos
    have hu2 : unit ≤ 1 / 1000 := by unfold unit; norm_num
    have E0 := low.2
    have d : |e1 + e2 - (E1 + E2)| ≤ r * (E1 + E2) := by
      have := abs_add_le (e1 - E1) (e2 - E2)
      rw [show e1 - E1 + (e2 - E2) = e1 + e2 - (E1 + E2) by ring] at this
      linarith
    clear hs m2 p1 m1 low high n1 n2 b1 b2 hb d1 d2 h1 h2
    generalize E1 + E2 = S at *
    generalize e1 + e2 = s at *
    generalize rnd s = s' at *
    generalize rnd (sig * s') = p at *
    have a1 : s ≤ (1 + r) * S := by linarith only [(_root_.abs_le.1 d).2]
    have a2 : |s' - S| ≤ unit * ((1 + r) * S) + r * S := by
      have := abs_sub_le s' s S
      have := mul_le_mul_of_nonneg_left a1 hu.le
      linarith
    have a3 : |sig * s' - sig * S| ≤ sig * (unit * ((1 + r) * S) + r * S) := by
      rw [← mul_sub, abs_mul, abs_of_pos sig0]
      exact mul_le_mul_of_nonneg_left a2 sig0.le
    have a4 : sig * s' ≤ sig * S + sig * (unit * ((1 + r) * S) + r * S) := by linarith only [(_root_.abs_le.1 a3).2]
    have a5 := abs_sub_le p (sig * s') (sig * S)
    have a6 := mul_le_mul_of_nonneg_left a4 hu.le
    have a7 : 0 < sig * S := mul_pos sig0 E0
    have e : sig * (unit * ((1 + r) * S) + r * S) = (unit * (1 + r) + r) * (sig * S) := by ring
    rw [e] at a3 a6
    generalize sig * S = T at *
    have b1 : |p - T| ≤ (unit * (1 + (unit * (1 + r) + r)) + (unit * (1 + r) + r)) * T := by
      linarith only [a5, r2, a6, a3]
    refine b1.trans (mul_le_mul_of_nonneg_right ?_ a7.le)
    nlinarith only [hu, hu2, hr0, hr, mul_nonneg hu.le hr0, mul_nonneg hu.le hu.le, mul_le_mul_of_nonneg_left hr hu.le, mul_le_mul_of_nonneg_left hu2 hu.le,
      mul_nonneg (mul_nonneg hu.le hu.le) hr0, mul_le_mul_of_nonneg_left hr (mul_nonneg hu.le hu.le)]


/-- The margin that keeps the test of an extended bin from being decided by rounding. -/
def DecidedTwo (n : ℕ) (sig : ℝ) (cs ds es fs : List ℝ) : Prop :=
  (mass cs + mass ds = 0 ∧ (es.map fun e => e * e).sum = 0 ∧ (fs.map fun e => e * e).sum = 0) ∨
    (n + 4) * 2 ^ (-52 : ℤ) * (mass cs + mass ds + sig * (Real.sqrt (es.map fun e => e * e).sum + Real.sqrt (fs.map fun e => e * e).sum))
      < |cs.sum + ds.sum - sig * (Real.sqrt (es.map fun e => e * e).sum + Real.sqrt (fs.map fun e => e * e).sum)|

theorem mass_bound {cs : List ℝ} (hc : ∀ c ∈ cs, Countable c) (hn : cs.length ≤ 2 ^ 40) : mass cs ≤ 2 ^ (940 : ℤ) := by
  have hlen : (cs.length : ℝ) ≤ 2 ^ 40 := by exact_mod_cast hn
  refine (list_bound (f := fun x => |x|) cs fun c hx => (hc c hx).2).trans ?_
  refine (mul_le_mul_of_nonneg_right hlen (two_zpow_pos _).le).trans ?_
  rw [show (2 : ℝ) ^ 40 = 2 ^ (40 : ℤ) by norm_num, ← zpow_add₀ (by norm_num)]
  exact zpow_le (by norm_num)

/-- The computed error of some channels. -/
theorem deviation_error {rnd} (h : Nearest rnd) {n : ℕ} {es : List ℝ} (he : ∀ e ∈ es, Sigma e) (hn : n ≤ 2 ^ 40) (h2 : es.length ≤ n) {t : Tree}
    (ht : t.leaves.Perm (es.map fun e => rnd (e * e)) ∨ t.leaves = 0 :: (es.map fun e => rnd (e * e))) :
    Rep (rnd (Real.sqrt (t.value rnd))) ∧
      |rnd (Real.sqrt (t.value rnd)) - Real.sqrt (es.map fun e => e * e).sum| ≤ (n + 2) * 2 ^ (-52 : ℤ) * Real.sqrt (es.map fun e => e * e).sum ∧
      (Real.sqrt (es.map fun e => e * e).sum = 0 ∧ rnd (Real.sqrt (t.value rnd)) = 0 ∨
        0 < Real.sqrt (es.map fun e => e * e).sum ∧ 2 ^ (-301 : ℤ) ≤ rnd (Real.sqrt (t.value rnd)) ∧ rnd (Real.sqrt (t.value rnd)) ≤ 2 ^ (321 : ℤ)) := by
  have hlen : (n : ℝ) ≤ 2 ^ 40 := by exact_mod_cast hn
  have l2 : (es.length : ℝ) ≤ n := by exact_mod_cast h2
  obtain ⟨-, ev⟩ := variance_error h he (h2.trans hn) ht
  have hV2 : (es.map fun e => e * e).sum ≤ 2 ^ (640 : ℤ) := by
    refine (list_bound es fun e hx => (square_error h (he e hx)).2.2.2).trans ?_
    refine (mul_le_mul_of_nonneg_right (l2.trans hlen) (two_zpow_pos _).le).trans ?_
    rw [show (2 : ℝ) ^ 40 = 2 ^ (40 : ℤ) by norm_num, ← zpow_add₀ (by norm_num)]
    exact zpow_le (by norm_num)
  have hV := list_pos he
  have V0 : 0 ≤ (es.map fun e => e * e).sum := List.sum_nonneg (by simp; intro a _; exact mul_self_nonneg a)
  generalize (es.map fun e => e * e).sum = V at *
  generalize t.value rnd = v at *
  have eu : (2 : ℝ) ^ (-52 : ℤ) = 2 * unit := by unfold unit; norm_num
  have hu := unit_pos
  have ku : ((n : ℝ) + 1) * 2 ^ (-52 : ℤ) ≤ 1 / 4 := by
    rw [eu]
    have e1 : ((2 : ℝ) ^ 40 + 1) * (2 * unit) ≤ 1 / 4 := by unfold unit; norm_num
    exact (mul_le_mul_of_nonneg_right (by linarith only [hlen]) (by positivity)).trans e1
  have ev' : |v - V| ≤ ((n : ℝ) + 1) * 2 ^ (-52 : ℤ) * V :=
    ev.trans (mul_le_mul_of_nonneg_right (mul_le_mul_of_nonneg_right (by linarith only [l2]) (two_zpow_pos _).le) V0)
  obtain ⟨r1, r2, r3⟩ := root_near h hV hV2 ku ev'
  refine ⟨r1, r2.trans (mul_le_mul_of_nonneg_right ?_ (Real.sqrt_nonneg _)), ?_⟩
  · rw [eu]; linarith only
  · rcases r3 with ⟨rfl, x⟩ | ⟨x, y⟩
    · left; exact ⟨Real.sqrt_zero, x⟩
    · right; exact ⟨Real.sqrt_pos.2 x, y⟩

theorem counts_error {rnd} (h : Nearest rnd) {n : ℕ} {cs : List ℝ} (hc : ∀ c ∈ cs, Countable c) (hn : n ≤ 2 ^ 40) (h1 : cs.length ≤ n) {t : Tree}
    (ht : t.leaves.Perm cs ∨ t.leaves = 0 :: cs) :
    Rep (t.value rnd) ∧ |t.value rnd - cs.sum| ≤ n * 2 ^ (-52 : ℤ) * mass cs ∧ |t.value rnd| ≤ 2 * mass cs := by
  have l1 : (cs.length : ℝ) ≤ n := by exact_mod_cast h1
  have hlen : (n : ℝ) ≤ 2 ^ 40 := by exact_mod_cast hn
  have m0 := mass_nonneg cs
  obtain ⟨rc, ec⟩ := order_error h (fun c hx => (hc c hx).1) (h1.trans hn) ((mass_bound hc (h1.trans hn)).trans (zpow_le (by norm_num))) ht
  have ec' : |t.value rnd - cs.sum| ≤ (n : ℝ) * 2 ^ (-52 : ℤ) * mass cs :=
    ec.trans (mul_le_mul_of_nonneg_right (mul_le_mul_of_nonneg_right l1 (two_zpow_pos _).le) m0)
  refine ⟨rc, ec', ?_⟩
  have ku : (n : ℝ) * 2 ^ (-52 : ℤ) ≤ 1 :=
    (mul_le_mul_of_nonneg_right hlen (two_zpow_pos _).le).trans (by norm_num)
  have d1 := ec'.trans (mul_le_mul_of_nonneg_right ku m0)
  have d2 := abs_add_le (t.value rnd - cs.sum) cs.sum
  rw [sub_add_cancel] at d2
  linarith only [d1, d2, sum_le_mass cs]

/-- A rounded difference has the sign of the difference. -/
theorem sign_same {rnd} (h : Nearest rnd) {c p : ℝ} (hc : Rep c) (hp : Rep p) (b1 : |c| ≤ 2 ^ (1000 : ℤ)) (b2 : |p| ≤ 2 ^ (1000 : ℤ)) : 0 ≤ rnd (c - p) ↔ 0 ≤ c - p := by
  have hb : |c + -p| ≤ 2 ^ 1023 := by
    rw [nat1023]
    exact (add_abs (p := 1000) (q := 1000) (r := 1001) b1 (by rw [abs_neg]; exact b2) (by norm_num) (by norm_num)).trans (zpow_le (by norm_num))
  obtain ⟨-, e1⟩ := plus_error h hc (rep_neg hp) hb
  rw [← sub_eq_add_neg] at e1
  have e2 := _root_.abs_le.1 e1
  have hu1 : unit < 1 := by unfold unit; norm_num
  rcases le_or_gt 0 (c - p) with g | g
  · rw [abs_of_nonneg g] at e2
    have := mul_le_mul_of_nonneg_right hu1.le g
    exact iff_of_true (by linarith only [e2.1, this]) g
  · rw [abs_of_neg g] at e2
    have := mul_lt_mul_of_pos_right hu1 (neg_pos.2 g)
    exact iff_of_false (by linarith only [e2.2, this]) (not_le.2 g)

/-- The test of an extended bin. -/
theorem two_same {rnd} (h : Nearest rnd) {n : ℕ} {sig : ℝ} {cs ds es fs : List ℝ} (hc : ∀ c ∈ cs, Countable c) (hd : ∀ c ∈ ds, Countable c) (he : ∀ e ∈ es, Sigma e)
    (hf : ∀ e ∈ fs, Sigma e) (hn : n ≤ 2 ^ 40) (h1 : cs.length ≤ n) (h2 : ds.length ≤ n) (h3 : es.length ≤ n) (h4 : fs.length ≤ n)
    (hs : 2 ^ (-30 : ℤ) ≤ sig ∧ sig ≤ 2 ^ (30 : ℤ)) (hk : DecidedTwo n sig cs ds es fs) {tc td te tf : Tree} (pc : tc.leaves.Perm cs ∨ tc.leaves = 0 :: cs)
    (pd : td.leaves.Perm ds ∨ td.leaves = 0 :: ds) (pe : te.leaves.Perm (es.map fun e => rnd (e * e)) ∨ te.leaves = 0 :: (es.map fun e => rnd (e * e)))
    (pf : tf.leaves.Perm (fs.map fun e => rnd (e * e)) ∨ tf.leaves = 0 :: (fs.map fun e => rnd (e * e))) :
    ((0 ≤ rnd (rnd (tc.value rnd + td.value rnd) - rnd (sig * rnd (rnd (Real.sqrt (te.value rnd)) + rnd (Real.sqrt (tf.value rnd))))) ∧
        0 < rnd (rnd (Real.sqrt (te.value rnd)) + rnd (Real.sqrt (tf.value rnd)))) ↔
      0 ≤ cs.sum + ds.sum - sig * (Real.sqrt (es.map fun e => e * e).sum + Real.sqrt (fs.map fun e => e * e).sum) ∧
        0 < Real.sqrt (es.map fun e => e * e).sum + Real.sqrt (fs.map fun e => e * e).sum) := by
  have hlen : (n : ℝ) ≤ 2 ^ 40 := by exact_mod_cast hn
  have sig0 : 0 < sig := (two_zpow_pos _).trans_le hs.1
  obtain ⟨c1, c2, c3⟩ := counts_error h hc hn h1 pc
  obtain ⟨d1, d2, d3⟩ := counts_error h hd hn h2 pd
  obtain ⟨e1, e2, e3⟩ := deviation_error h he hn h3 pe
  obtain ⟨f1, f2, f3⟩ := deviation_error h hf hn h4 pf
  have mc := mass_bound hc (h1.trans hn)
  have md := mass_bound hd (h2.trans hn)
  have m0 := mass_nonneg cs
  have m0' := mass_nonneg ds
  have eu : (2 : ℝ) ^ (-52 : ℤ) = 2 * unit := by unfold unit; norm_num
  have hu := unit_pos
  have n0 : (0 : ℝ) ≤ n := Nat.cast_nonneg n
  have ku : ((n : ℝ) + 2) * 2 ^ (-52 : ℤ) ≤ 1 / 4 := by
    rw [eu]
    have e1 : ((2 : ℝ) ^ 40 + 2) * (2 * unit) ≤ 1 / 4 := by unfold unit; norm_num
    exact (mul_le_mul_of_nonneg_right (by linarith only [hlen]) (by positivity)).trans e1
  obtain ⟨l1, l2, l3, l4⟩ := limit_two h hs (by positivity) ku e1 f1 e2 f2 e3 f3
  have z0 : (es.map fun e => e * e).sum = 0 → Real.sqrt (es.map fun e => e * e).sum = 0 := fun z => by rw [z, Real.sqrt_zero]
  have z0' : (fs.map fun e => e * e).sum = 0 → Real.sqrt (fs.map fun e => e * e).sum = 0 := fun z => by rw [z, Real.sqrt_zero]
  have T0 : 0 ≤ sig * (Real.sqrt (es.map fun e => e * e).sum + Real.sqrt (fs.map fun e => e * e).sum) := by positivity
  refine and_congr ?_ l4
  unfold DecidedTwo at hk
  have b900 : |tc.value rnd + td.value rnd| ≤ 2 ^ (950 : ℤ) := by
    have e : (2 : ℝ) ^ (950 : ℤ) = 1024 * 2 ^ (940 : ℤ) := by
      rw [show (950 : ℤ) = 10 + 940 by norm_num, zpow_add₀ (by norm_num)]; norm_num
    rw [e]
    clear e
    have := abs_add_le (tc.value rnd) (td.value rnd)
    clear ku l3
    generalize (2 : ℝ) ^ (940 : ℤ) = z at *
    linarith only [this, c3, d3, mc, md, m0]
  obtain ⟨s1, s2⟩ := plus_error h c1 d1 (b900.trans (by rw [nat1023]; exact zpow_le (by norm_num)))
  have sb : |tc.value rnd + td.value rnd| ≤ 2 * (mass cs + mass ds) := (abs_add_le _ _).trans (by linarith only [c3, d3])
  have dd : |tc.value rnd + td.value rnd - (cs.sum + ds.sum)| ≤ n * 2 ^ (-52 : ℤ) * (mass cs + mass ds) := by
    have := abs_add_le (tc.value rnd - cs.sum) (td.value rnd - ds.sum)
    rw [show tc.value rnd - cs.sum + (td.value rnd - ds.sum) = tc.value rnd + td.value rnd - (cs.sum + ds.sum) by ring] at this
    rw [mul_add]
    linarith only [this, c2, d2]
  have p0 : |rnd (sig * rnd (rnd (Real.sqrt (te.value rnd)) + rnd (Real.sqrt (tf.value rnd))))| ≤ 2 ^ (1000 : ℤ) := by
    have kk : ((n : ℝ) + 2) * 2 ^ (-52 : ℤ) + 4 * unit ≤ 1 := by
      have : unit ≤ 1 / 8 := by unfold unit; norm_num
      exact (add_le_add ku (mul_le_mul_of_nonneg_left this (by norm_num : (0 : ℝ) ≤ 4))).trans (by norm_num)
    have := (_root_.abs_le.1 (l2.trans (mul_le_mul_of_nonneg_right kk T0))).1
    rw [abs_of_nonneg (by linarith only [this])]
    exact l3
  have rb : |rnd (tc.value rnd + td.value rnd)| ≤ 2 ^ (1000 : ℤ) := by
    exact (h.abs_le b900 (by norm_num) (by norm_num)).2.trans (zpow_le (by norm_num))
  have TZ : (es.map fun e => e * e).sum = 0 → (fs.map fun e => e * e).sum = 0 →
      sig * (Real.sqrt (es.map fun e => e * e).sum + Real.sqrt (fs.map fun e => e * e).sum) = 0 := fun x y => by
    rw [z0 x, z0' y, add_zero, mul_zero]
  rw [sign_same h s1 l1 rb p0, sub_nonneg (b := sig * _)]
  generalize sig * (Real.sqrt (es.map fun e => e * e).sum + Real.sqrt (fs.map fun e => e * e).sum) = T at *
  generalize rnd (sig * rnd (rnd (Real.sqrt (te.value rnd)) + rnd (Real.sqrt (tf.value rnd)))) = p at *
  have cc : |rnd (tc.value rnd + td.value rnd) - (cs.sum + ds.sum)| ≤ (n + 1) * 2 ^ (-52 : ℤ) * (mass cs + mass ds) := by
    have t1 := abs_sub_le (rnd (tc.value rnd + td.value rnd)) (tc.value rnd + td.value rnd) (cs.sum + ds.sum)
    have t2 := mul_le_mul_of_nonneg_left sb hu.le
    rw [eu] at dd ⊢
    linarith only [t1, t2, s2, dd]
  generalize rnd (tc.value rnd + td.value rnd) = c at *
  generalize cs.sum + ds.sum = C at *
  have M0 : 0 ≤ mass cs + mass ds := add_nonneg m0 m0'
  generalize mass cs + mass ds = M at *
  refine compare (m := (n + 4) * 2 ^ (-52 : ℤ) * (M + T)) ?_ ?_
  · have k1 : ((n : ℝ) + 1) * 2 ^ (-52 : ℤ) * M ≤ (n + 4) * 2 ^ (-52 : ℤ) * M :=
      mul_le_mul_of_nonneg_right (mul_le_mul_of_nonneg_right (by linarith only) (two_zpow_pos _).le) M0
    have k2 : (((n : ℝ) + 2) * 2 ^ (-52 : ℤ) + 4 * unit) * T ≤ (n + 4) * 2 ^ (-52 : ℤ) * T := by
      refine mul_le_mul_of_nonneg_right ?_ T0
      rw [eu]
      linarith only
    rw [mul_add]
    exact (add_le_add cc l2).trans (add_le_add k1 k2)
  · rcases hk with ⟨g1, g2, g3⟩ | hk
    · right
      rw [g1, mul_zero] at cc
      have hT := TZ g2 g3
      rw [hT, mul_zero] at l2
      exact ⟨sub_eq_zero.1 (abs_nonpos_iff.1 cc), by rw [hT]; exact sub_eq_zero.1 (abs_nonpos_iff.1 l2)⟩
    · exact Or.inl hk

/-! ## The extension and the loop -/

theorem findIdx_same {α β : Type*} {p : α → Bool} {q : β → Bool} : ∀ (xs : List α) (ys : List β), xs.length = ys.length →
    (∀ (k : ℕ) (h1 : k < xs.length) (h2 : k < ys.length), p xs[k] = q ys[k]) → xs.findIdx? p = ys.findIdx? q
  | [], [], _, _ => rfl
  | [], _ :: _, h, _ => absurd h (by simp)
  | _ :: _, [], h, _ => absurd h (by simp)
  | x :: xs, y :: ys, h, hk => by
    have h0 := hk 0 (by simp) (by simp)
    simp only [List.getElem_cons_zero] at h0
    have ih := findIdx_same (p := p) (q := q) xs ys (by simpa using h) fun k h1 h2 => by
      exact hk (k + 1) (by simpa using h1) (by simpa using h2)
    rw [List.findIdx?_cons, List.findIdx?_cons, h0, ih]

theorem length_cumsumFrom (F : Impl) : ∀ (xs : List ℝ) (acc : ℝ), (F.cumsumFrom acc xs).length = xs.length
  | [], _ => rfl
  | x :: xs, acc => by simp [Impl.cumsumFrom, length_cumsumFrom F xs]

theorem length_cumsum' (F : Impl) (xs : List ℝ) : (F.cumsum xs).length = xs.length := by
  cases xs with
  | nil => rfl
  | cons x xs => simp [Impl.cumsum, length_cumsumFrom]

theorem cumsum_get {F : Impl} (h : F.Legal) {xs : List ℝ} (hx : ∀ x ∈ xs, Rep x ∧ |x| ≤ 2 ^ (1023 : ℤ)) {k : ℕ} (hk : k < (F.cumsum xs).length) :
    (F.cumsum xs)[k] = running F.rnd (xs.take (k + 1)) := by
  have hk' : k + 1 ≤ xs.length := by rw [length_cumsum'] at hk; omega
  rw [← prefix_get h hx hk', Impl.prefixSum, List.getD_cons_succ, List.getD_eq_getElem _ _ hk]

/-- Channels `a` to `b - 1` of the channels from `w` on. -/
theorem take_drop_channels (xs : List ℝ) (w k : ℕ) : (xs.drop w).take k = channels xs w (w + k) := by
  unfold channels
  rw [List.drop_take, Nat.add_sub_cancel_left]

section
variable {F : Impl} {sig : ℝ} {count error : List ℝ}

theorem extend_same (h : F.Legal) (hl : count.length = error.length) (hc : ∀ c ∈ count, Countable c) (he : ∀ e ∈ error, Sigma e) (hn : count.length ≤ 2 ^ 40)
    (hs : 2 ^ (-30 : ℤ) ≤ sig ∧ sig ≤ 2 ^ (30 : ℤ)) {i j : ℕ} (hij : i ≤ j) (hj : j < count.length)
    (hd : Decided count.length sig (channels count i (j + 1)) (channels error i (j + 1)))
    (hd2 : ∀ b, j + 1 < b → b ≤ count.length →
      DecidedTwo count.length sig (channels count i (j + 1)) (channels count (j + 1) b) (channels error i (j + 1)) (channels error (j + 1) b)) :
    F.optNormalExtend count error sig i j = optNormalExtend count error sig i j := by
  have hr : Nearest F.rnd := h.nearest
  have ne : ∀ xs : List ℝ, xs.length = count.length → channels xs i (j + 1) ≠ [] := by
    intro xs hx h0
    have := congrArg List.length h0
    unfold channels at this
    rw [List.length_drop, List.length_take, List.length_nil] at this
    omega
  have sub : ∀ (xs : List ℝ) (a b : ℕ), (channels xs a b).length ≤ xs.length := fun xs a b => (channels_sub xs a b).length_le
  obtain ⟨T1, t1, p1⟩ := sum_tree h i (ne count rfl)
  obtain ⟨T2, t2, p2⟩ := sum_tree h i (xs := (channels error i (j + 1)).map fun e => F.rnd (e * e)) (by
    intro h0
    exact ne error hl.symm (List.map_eq_nil_iff.1 h0))
  have hc1 : ∀ a b, ∀ c ∈ channels count a b, Countable c := fun a b c hx => hc c ((channels_sub count a b).subset hx)
  have he1 : ∀ a b, ∀ c ∈ channels error a b, Sigma c := fun a b c hx => he c ((channels_sub error a b).subset hx)
  have key := test_same h (n := count.length) (hc1 i (j + 1)) (he1 i (j + 1)) hn (sub _ _ _) ((sub _ _ _).trans hl.ge) hs hd (Or.inl p1) (Or.inl p2)
  have dev := deviation_error hr (n := count.length) (he1 i (j + 1)) hn ((sub _ _ _).trans hl.ge) (Or.inl p2)
  have s1 : sliceSum count i (j + 1) = (channels count i (j + 1)).sum := rfl
  have s2 : sliceSum (error.map fun e => e * e) i (j + 1) = ((channels error i (j + 1)).map fun e => e * e).sum := by
    rw [← channels_map]; rfl
  unfold Impl.optNormalExtend optNormalExtend
  rw [s1, s2]
  have t1' : F.sum i ((count.take (j + 1)).drop i) = T1.value F.rnd := t1
  have t2' : F.sum i (((error.take (j + 1)).drop i).map fun e => F.rnd (e * e)) = T2.value F.rnd := t2
  dsimp only
  rw [t1', t2']
  unfold Impl.excess at key
  refine if_congr (or_congr ?_ ?_) ?_ rfl
  · rw [← not_le, ← not_le, key.1, sub_nonneg]
  · rcases dev.2.2 with ⟨x, y⟩ | ⟨x, y, -⟩
    · exact iff_of_true y x
    · exact iff_of_false ((two_zpow_pos _).trans_le y).ne' x.ne'
  · congr 1
    have hbig : ∀ x ∈ count.drop (j + 1), Rep x ∧ |x| ≤ 2 ^ (1023 : ℤ) := fun x hx => by
      have := hc x (List.mem_of_mem_drop hx)
      exact ⟨this.1, this.2.trans (zpow_le (by norm_num))⟩
    have hbig' : ∀ x ∈ (error.drop (j + 1)).map fun e => F.rnd (e * e), Rep x ∧ |x| ≤ 2 ^ (1023 : ℤ) := by
      intro x hx
      obtain ⟨e, hx', rfl⟩ := List.mem_map.1 hx
      obtain ⟨q1, q2, q3, q4⟩ := square_error hr (he e (List.mem_of_mem_drop hx'))
      refine ⟨q1, ?_⟩
      rw [abs_of_nonneg q2]
      have h5 : unit ≤ 1 := by unfold unit; norm_num
      have h6 := mul_le_mul_of_nonneg_right h5 (mul_self_nonneg e)
      have h7 : F.rnd (e * e) ≤ 2 ^ (601 : ℤ) := by
        rw [show (601 : ℤ) = 600 + 1 by norm_num, zpow_add₀ (by norm_num), zpow_one]
        have := (_root_.abs_le.1 q3).2
        linarith only [q4, this, h6]
      exact h7.trans (zpow_le (by norm_num))
    refine findIdx_same _ _ ?_ ?_
    · simp only [List.length_zip, List.length_map, length_cumsum', length_cumsum, List.length_drop]
    · intro k h1 h2
      have hk : k < (count.drop (j + 1)).length := by
        simp only [List.length_zip, List.length_map, length_cumsum] at h2
        omega
      rw [List.length_drop] at hk
      rw [List.getElem_zip, List.getElem_zip]
      simp only [List.getElem_map]
      rw [cumsum_get h hbig, cumsum_get h hbig', getElem_cumsum, getElem_cumsum, ← List.map_take, take_drop_channels, take_drop_channels, List.map_drop, total_drop, total_drop,
        ← channels_sum, ← channels_sum, channels_map, show j + 1 + 0 = j + 1 by omega, running_value, running_value]
      have two := two_same hr (n := count.length) (hc1 i (j + 1)) (hc1 (j + 1) (j + 1 + (k + 1))) (he1 i (j + 1)) (he1 (j + 1) (j + 1 + (k + 1))) hn (sub _ _ _) (sub _ _ _)
        ((sub _ _ _).trans hl.ge) ((sub _ _ _).trans hl.ge) hs (hd2 (j + 1 + (k + 1)) (by omega) (by omega)) (Or.inl p1) (Or.inr (running_leaves _)) (Or.inl p2) (Or.inr (running_leaves _))
      exact decide_eq_decide.2 two

end

theorem optLoop_same {ext ext' : ℕ → ℕ → Option ℕ} {bint : List ℕ} {n : ℕ} (h : ∀ i, i < n → ext i (optWidth bint (n - 1) i) = ext' i (optWidth bint (n - 1) i)) :
    ∀ (fuel i : ℕ) (idx : List ℕ), optLoop ext bint n fuel i idx = optLoop ext' bint n fuel i idx
  | 0, _, _ => rfl
  | fuel + 1, i, idx => by
    unfold optLoop
    split
    · rename_i hi
      dsimp only
      rw [h i hi]
      split
      · rfl
      · split
        · rfl
        · exact optLoop_same h fuel _ _
    · rfl

/-! ## Specification -/

/-- A bin extended from the channels `a` to `w` to the channels up to `b - 1` is not within rounding of the threshold: its counts and `sig` times its error as the code adds it up
differ by more than `n + 4` units of `2 ^ -52` of the sum of both; or there is nothing at all in these channels. -/
def ClearOfExtended (count error : List ℝ) (sig : ℝ) (a w b : ℕ) : Prop :=
  (total (count.map fun c => |c|) a b = 0 ∧ variance error a b = 0) ∨
    (count.length + 4) * 2 ^ (-52 : ℤ) * (total (count.map fun c => |c|) a b + sig * (Real.sqrt (variance error a (w + 1)) + Real.sqrt (variance error (w + 1) b)))
      < |total count a b - sig * (Real.sqrt (variance error a (w + 1)) + Real.sqrt (variance error (w + 1) b))|

/-- **C158.**  If no interval of channels, and no bin extended beyond its optimal width, has a significance within rounding of the threshold, then the optimal grouping with a minimum
significance computed in float64, in whatever order NumPy adds, and the reported success are those of exact arithmetic (so C06 says what they are).  The counts
are any numbers of the format up to `2 ^ 900`, the errors are zero or between `2 ^ -300` and `2 ^ 300`, the threshold is between `2 ^ -30` and `2 ^ 30`.  What is
missing: bins at the threshold, see the counterexample below. -/
theorem C158_grouping_partial {F : Impl} (h : F.Legal) (bint : List ℕ) (count error : List ℝ) (sig : ℝ) (hb : ∀ x ∈ bint, 1 ≤ x) (hc : ∀ c ∈ count, Rep c ∧ |c| ≤ 2 ^ (900 : ℤ))
    (he : ∀ e ∈ error, Rep e ∧ (e = 0 ∨ 2 ^ (-300 : ℤ) ≤ e ∧ e ≤ 2 ^ (300 : ℤ))) (hn : count.length ≤ 2 ^ 40) (hs : 2 ^ (-30 : ℤ) ≤ sig ∧ sig ≤ 2 ^ (30 : ℤ))
    (hd : ∀ a b, a < b → b ≤ count.length → ClearOf count error sig a b)
    (hd2 : ∀ a w b, OptimalEnd bint a w → w + 1 < b → b ≤ count.length → ClearOfExtended count error sig a w b) :
    F.groupOptsigNormal bint count error sig = groupOptsigNormal bint count error sig := by
  unfold Impl.groupOptsigNormal groupOptsigNormal
  by_cases hl : bint.length = count.length ∧ count.length = error.length
  swap
  · rw [if_pos hl, if_pos hl]
  rw [if_neg (not_not.2 hl), if_neg (not_not.2 hl)]
  obtain ⟨hlb, hl⟩ := hl
  split
  · rfl
  rename_i hsig
  have hsig' := not_le.1 hsig
  have hd' : ∀ a b, a < b → b ≤ count.length → Decided count.length sig (channels count a b) (channels error a b) := by
    intro a b hab hb
    have := hd a b hab hb
    unfold ClearOf variance at this
    unfold Decided mass
    rwa [← channels_sum, ← channels_sum, ← channels_sum, channels_map, channels_map] at this
  dsimp only
  rcases Nat.eq_zero_or_pos bint.length with h0 | hpos
  · rw [h0]
    have e1 : count = [] := List.length_eq_zero_iff.1 (by omega)
    have e2 : error = [] := List.length_eq_zero_iff.1 (by omega)
    subst e1 e2
    rfl
  have hb' : ∀ k, k ≤ bint.length - 1 → 1 ≤ bint.getD k 0 := fun k hk => getD_one_le hb hk hpos
  have hext : ∀ i, i < bint.length → F.optNormalExtend count error sig i (optWidth bint (bint.length - 1) i) = optNormalExtend count error sig i (optWidth bint (bint.length - 1) i) := by
    intro i hi
    have w1 := le_optWidth (bint := bint) (imax := bint.length - 1) (i := i) (by omega) hb'
    have w2 := optWidth_le (bint := bint) (imax := bint.length - 1) (i := i)
    refine extend_same h hl hc he hn hs w1 (by omega) (hd' _ _ (by omega) (by omega)) ?_
    intro b hwb hbn
    have := hd2 i _ b (optimalEnd_optWidth hb hi) hwb hbn
    generalize optWidth bint (bint.length - 1) i = w at *
    have sp : ∀ xs : List ℝ, total xs i b = total xs i (w + 1) + total xs (w + 1) b := fun xs => (total_append xs (by omega) (by omega)).symm
    unfold ClearOfExtended variance at this
    unfold DecidedTwo mass
    rw [sp count, sp (count.map _), sp (error.map _), ← channels_sum, ← channels_sum, ← channels_sum, ← channels_sum, ← channels_sum, ← channels_sum, channels_map, channels_map, channels_map,
      channels_map] at this
    rcases this with ⟨g1, g2⟩ | g
    · left
      have n1 := List.sum_nonneg (l := (channels error i (w + 1)).map fun e => e * e) (by simp; intro a _; exact mul_self_nonneg a)
      have n2 := List.sum_nonneg (l := (channels error (w + 1) b).map fun e => e * e) (by simp; intro a _; exact mul_self_nonneg a)
      exact ⟨g1, by linarith, by linarith⟩
    · exact Or.inr g
  rw [optLoop_same hext]
  have hdesc : Desc (optLoop (optNormalExtend count error sig) bint bint.length bint.length 0 []) count.length := by
    rw [← hlb]
    refine (opt_out (optNormalExtend count error sig) bint hpos ?_).desc
    intro i j hi hj
    rw [optNormalExtend_eq bint count error sig hlb hl i (le_optWidth (by omega) hb') hpos] at hj
    have h' := sigExtend_some hj
    have h1 := le_optWidth (bint := bint) (imax := bint.length - 1) (i := i) (by omega) hb'
    have h2 := optWidth_le (bint := bint) (imax := bint.length - 1) (i := i)
    omega
  rw [normalSuccess_same h hl hc he hn hs hd' hdesc]

theorem exClearExtended : ∀ a w b, OptimalEnd [2, 1, 1] a w → w + 1 < b → b ≤ ([1, 3, 9] : List ℝ).length → ClearOfExtended [1, 3, 9] [1, 1, 2] 2 a w b := by
  intro a w b hw hwb hb
  have hb' : b ≤ 3 := hb
  have haw := hw.1.1
  right
  have r2 := sqrt_between (x := 2) (a := 1.4) (b := 3 / 2) (by norm_num) (by norm_num) (by norm_num)
  have r5 := sqrt_between (x := 5) (a := 2.2) (b := 9 / 4) (by norm_num) (by norm_num) (by norm_num)
  have r4 := sqrt_between (x := 4) (a := 2) (b := 2) (by norm_num) (by norm_num) (by norm_num)
  unfold variance
  rw [total_eq_sliceSum, total_eq_sliceSum, total_eq_sliceSum, total_eq_sliceSum]
  have hw0 : a = 0 → 1 ≤ w := by
    rintro rfl
    refine hw.2 ⟨by omega, by simp, ?_⟩
    intro k _ hk
    have : k = 0 ∨ k = 1 := by omega
    rcases this with rfl | rfl <;> simp
  have h01 : a = 0 ∧ w = 1 ∧ b = 3 ∨ a = 1 ∧ w = 1 ∧ b = 3 := by omega
  rcases h01 with ⟨rfl, rfl, rfl⟩ | ⟨rfl, rfl, rfl⟩ <;> norm_num [sliceSum]
  · rw [abs_of_nonneg (by linarith)]; linarith
  · rw [abs_of_nonneg (by linarith)]; linarith

example := C158_grouping_partial leftImpl_legal [2, 1, 1] [1, 3, 9] [1, 1, 2] 2 (by decide) exCounts exErrors (by norm_num) ⟨by norm_num, by norm_num⟩ exClear exClearExtended

/-! ## At the threshold -/

theorem sum_two {F : Impl} (h : F.Legal) (t : ℕ) (a b : ℝ) : F.sum t [a, b] = F.rnd (a + b) := by
  obtain ⟨T, t1, t2⟩ := sum_tree h t (xs := [a, b]) (by simp)
  rw [t1]
  have hl := t2.length_eq
  cases T with
  | leaf x => simp [Tree.leaves] at hl
  | node l r =>
    have one : ∀ T : Tree, 1 ≤ T.leaves.length := fun T => by
      cases T with
      | leaf x => simp [Tree.leaves]
      | node l r =>
        rw [Tree.leaves, List.length_append]
        have : ∀ T : Tree, 0 < T.leaves.length := fun T => by
          induction T with
          | leaf x => simp [Tree.leaves]
          | node l r ih _ => rw [Tree.leaves, List.length_append]; omega
        have := this l
        omega
    have l1 := one l
    have r1 := one r
    rw [Tree.leaves, List.length_append] at hl
    simp only [List.length_cons, List.length_nil] at hl
    have single : ∀ T : Tree, T.leaves.length = 1 → ∃ x, T = .leaf x := fun T hT => by
      cases T with
      | leaf x => exact ⟨x, rfl⟩
      | node l r =>
        have := one l
        have := one r
        rw [Tree.leaves, List.length_append] at hT
        omega
    obtain ⟨x, rfl⟩ := single l (by omega)
    obtain ⟨y, rfl⟩ := single r (by omega)
    have hs := t2.sum_eq
    simp only [Tree.leaves, List.sum_append, List.sum_cons, List.sum_nil, add_zero] at hs
    simp only [Tree.value]
    rw [hs]

/-- **C158 fails at the threshold.**  Three channels, the optimal width at the first is two channels: exactly, the first two together are less significant than one standard deviation,
the bin is extended and all three are one group; in float64 the first two are a group of their own. -/
theorem C158_grouping_refuted {F : Impl} (h : F.Legal) :
    (∃ success, F.groupOptsigNormal [2, 1, 1] [2 ^ (-62 : ℤ), 3 / 2, 3] [2 ^ (-30 : ℤ), 3 / 2, 1] 1 = .ok ([1, -1, 1], success)) ∧
      (∃ success, groupOptsigNormal [2, 1, 1] [2 ^ (-62 : ℤ), 3 / 2, 3] [2 ^ (-30 : ℤ), 3 / 2, 1] 1 = .ok ([1, -1, -1], success)) ∧
      ¬ NormalMeets [2 ^ (-62 : ℤ), 3 / 2, 3] [2 ^ (-30 : ℤ), 3 / 2, 1] 1 0 2 := by
  have hr : Nearest F.rnd := h.nearest
  have e60 : (2 : ℝ) ^ (-30 : ℤ) * 2 ^ (-30 : ℤ) = 2 ^ (-60 : ℤ) := by rw [← zpow_add₀ (by norm_num)]; norm_num
  have low : (2 : ℝ) ^ (-62 : ℤ) + 3 / 2 < Real.sqrt (2 ^ (-60 : ℤ) + 3 / 2 * (3 / 2)) := by
    refine Real.lt_sqrt_of_sq_lt ?_
    norm_num
  have w0 : optWidth [2, 1, 1] 2 0 = 1 := by decide
  have w2 : optWidth [2, 1, 1] 2 2 = 2 := by decide
  have fixp : ∀ p : ℤ, -1022 ≤ p → p ≤ 1023 → F.rnd (2 ^ p) = 2 ^ p := fun p h1 h2 =>
    hr.fix (rep_pow h1 h2) (by rw [abs_of_pos (two_zpow_pos _)]; exact zpow_le h2)
  refine ⟨?_, ?_, (C156_grouping_refuted h).2.2⟩
  · have k0 := fix_small hr 0 (by norm_num)
    have k1 := fix_small hr 1 (by norm_num)
    have k2 := fix_small hr 2 (by norm_num)
    push_cast at k0 k1 k2
    have q1 : F.rnd (3 / 2 * (3 / 2)) = 9 / 4 :=
      hr.eq 5066549580791808 (-51) (by norm_num) (by norm_num) (by norm_num) (by norm_num) (by norm_num) (by norm_num)
    have c2 : F.rnd (2 ^ (-62 : ℤ) + 3 / 2) = 3 / 2 :=
      hr.eq 6755399441055744 (-52) (by norm_num) (by norm_num) (by norm_num) (by norm_num) (by norm_num) (by norm_num [abs_lt])
    have v2 : F.rnd (2 ^ (-60 : ℤ) + 9 / 4) = 9 / 4 :=
      hr.eq 5066549580791808 (-51) (by norm_num) (by norm_num) (by norm_num) (by norm_num) (by norm_num) (by norm_num [abs_lt])
    have r2 : F.rnd (3 / 2) = 3 / 2 :=
      hr.eq 6755399441055744 (-52) (by norm_num) (by norm_num) (by norm_num) (by norm_num) (by norm_num) (by norm_num)
    have s94 : Real.sqrt (9 / 4) = 3 / 2 := by rw [show (9 / 4 : ℝ) = 3 / 2 * (3 / 2) by norm_num, Real.sqrt_mul_self (by norm_num)]
    have x0 : F.optNormalExtend [2 ^ (-62 : ℤ), 3 / 2, 3] [2 ^ (-30 : ℤ), 3 / 2, 1] 1 0 1 = some 1 := by
      unfold Impl.optNormalExtend
      dsimp only [List.take, List.drop, List.map]
      rw [sum_two h, sum_two h, e60, fixp _ (by norm_num) (by norm_num), q1, c2, v2, s94, r2, one_mul, r2, sub_self, k0, if_neg (by norm_num)]
    have one : ∀ (t : ℕ) (a : ℝ), F.sum t [a] = a := fun t a => by
      obtain ⟨T, t1, t2⟩ := sum_tree h t (xs := [a]) (by simp)
      rw [t1]
      have := List.perm_singleton.1 t2
      cases T with
      | leaf x => simpa [Tree.leaves, Tree.value] using this
      | node l r =>
        have pos : ∀ T : Tree, 0 < T.leaves.length := fun T => by
          induction T with
          | leaf x => simp [Tree.leaves]
          | node l r ih _ => rw [Tree.leaves, List.length_append]; omega
        have := congrArg List.length this
        have p1 := pos l
        have p2 := pos r
        rw [Tree.leaves, List.length_append, List.length_singleton] at this
        omega
    have x2 : F.optNormalExtend [2 ^ (-62 : ℤ), 3 / 2, 3] [2 ^ (-30 : ℤ), 3 / 2, 1] 1 2 2 = some 2 := by
      unfold Impl.optNormalExtend
      dsimp only [List.take, List.drop, List.map]
      rw [one, one, one_mul, one_mul, k1, Real.sqrt_one, k1, k1, show (3 : ℝ) - 1 = 2 by norm_num, k2, if_neg (by norm_num)]
    unfold Impl.groupOptsigNormal
    rw [if_neg (by simp), if_neg (by norm_num)]
    have loop : optLoop (F.optNormalExtend [2 ^ (-62 : ℤ), 3 / 2, 3] [2 ^ (-30 : ℤ), 3 / 2, 1] 1) [2, 1, 1] 3 3 0 [] = [2, 0] := by
      generalize F.optNormalExtend [2 ^ (-62 : ℤ), 3 / 2, 3] [2 ^ (-30 : ℤ), 3 / 2, 1] 1 = ext at x0 x2
      simp [optLoop, w0, w2, x0, x2]
    dsimp only [List.length_cons, List.length_nil]
    rw [loop]
    exact ⟨_, by rw [show setFlags 3 [2, 0].reverse = [1, -1, 1] from rfl]⟩
  · have x0 : optNormalExtend [2 ^ (-62 : ℤ), 3 / 2, 3] [2 ^ (-30 : ℤ), 3 / 2, 1] 1 0 1 = some 2 := by
      have b := sqrt_between (x := 2 ^ (-60 : ℤ) + 3 / 2 * (3 / 2)) (a := 1) (b := 2) (by norm_num) (by norm_num) (by norm_num)
      have hp := two_zpow_pos (-62)
      unfold optNormalExtend
      simp only [sliceSum, List.map_cons, List.map_nil, List.take, List.drop, e60, List.sum_cons, List.sum_nil, add_zero, one_mul]
      rw [if_pos (Or.inl (sub_neg.2 low))]
      simp only [cumsum, cumsumFrom, List.map_cons, List.map_nil, List.zip_cons_cons, List.zip_nil_right, zero_add, Real.sqrt_one]
      rw [List.findIdx?_cons, if_pos]
      · rfl
      · rw [decide_eq_true_eq]
        constructor <;> linarith only [b.1, b.2, hp]
    unfold groupOptsigNormal
    rw [if_neg (by simp), if_neg (by norm_num)]
    have loop : optLoop (optNormalExtend [2 ^ (-62 : ℤ), 3 / 2, 3] [2 ^ (-30 : ℤ), 3 / 2, 1] 1) [2, 1, 1] 3 3 0 [] = [0] := by
      generalize optNormalExtend [2 ^ (-62 : ℤ), 3 / 2, 3] [2 ^ (-30 : ℤ), 3 / 2, 1] 1 = ext at x0
      simp [optLoop, w0, x0]
    dsimp only [List.length_cons, List.length_nil]
    rw [loop]
    exact ⟨_, by rw [show setFlags 3 [0].reverse = [1, -1, -1] from rfl]⟩

example := C158_grouping_refuted leftImpl_legal

/-- **C158 (refused).** Unequal numbers of widths, counts and errors and thresholds that are not positive are refused with an `AssertionError`, and nothing else is refused. -/
theorem C158_refuses (F : Impl) (bint : List ℕ) (counts errors : List ℝ) (sig : ℝ) :
    (F.groupOptsigNormal bint counts errors sig = .error .assertionError ↔ ¬ (bint.length = counts.length ∧ counts.length = errors.length) ∨ sig ≤ 0) ∧
      ((∃ r, F.groupOptsigNormal bint counts errors sig = .ok r) ↔ bint.length = counts.length ∧ counts.length = errors.length ∧ 0 < sig) := by
  unfold Impl.groupOptsigNormal
  by_cases h1 : bint.length = counts.length ∧ counts.length = errors.length
  swap
  · rw [if_pos h1]
    refine ⟨by simp [h1], ?_⟩
    simp only [reduceCtorEq, exists_false, false_iff]
    exact fun h => h1 ⟨h.1, h.2.1⟩
  rw [if_neg (not_not.2 h1)]
  by_cases h2 : sig ≤ 0
  · rw [if_pos h2]
    simp [h2, not_lt.2 h2]
  · rw [if_neg h2]
    simp [h1.1, h1.2, not_le.1 h2]

example (F : Impl) : ∃ r, F.groupOptsigNormal [1] [4] [1] 2 = .ok r := ((C158_refuses F [1] [4] [1] 2).2).2 (by norm_num)

example (F : Impl) : F.groupOptsigNormal [1] [4] [1] 0 = .error .assertionError := ((C158_refuses F [1] [4] [1] 0).1).2 (.inr le_rfl)

end Elisa.Grouping.Fl
