import Verif.Util.Report

/-!
# C89: the value and errors shown are the ones computed
-/

namespace Elisa.Util.Report

/-- A rounding to nearest. -/
def Nearest (rnd : ℚ → ℤ) : Prop := ∀ x : ℚ, |(rnd x : ℚ) - x| ≤ 1 / 2

theorem ten_zpow_pos (k : ℤ) : (0 : ℚ) < 10 ^ k := zpow_pos (by norm_num) k

theorem ten_zpow_ne (k : ℤ) : (10 : ℚ) ^ k ≠ 0 := (ten_zpow_pos k).ne'

theorem decade_spec {v : ℚ} (h : v ≠ 0) : (10 : ℚ) ^ decade v ≤ |v| ∧ |v| < 10 ^ (decade v + 1) := by
  have hp : 0 < |v| := abs_pos.2 h
  constructor
  · have := Int.zpow_log_le_self (b := 10) (by norm_num) hp
    simpa [decade] using this
  · have := Int.lt_zpow_succ_log_self (R := ℚ) (b := 10) (by norm_num) |v|
    simpa [decade] using this

theorem fixedPoint_near {rnd : ℚ → ℤ} (hr : Nearest rnd) (p : ℕ) (v : ℚ) : |fixedPoint rnd p v - v| ≤ 1 / 2 / 10 ^ p := by
  have h10 : (0 : ℚ) < 10 ^ p := by positivity
  have := hr (v * 10 ^ p)
  rw [fixedPoint]
  have e : (rnd (v * 10 ^ p) : ℚ) / 10 ^ p - v = ((rnd (v * 10 ^ p) : ℚ) - v * 10 ^ p) / 10 ^ p := by field_simp
  rw [e, abs_div, abs_of_pos h10]
  exact div_le_div_of_nonneg_right this h10.le

/-- A number of at least one unit of the last place is not shown as zero, and with its own sign. -/
theorem fixedPoint_sign {rnd : ℚ → ℤ} (hr : Nearest rnd) (p : ℕ) (v : ℚ) (h : 1 / 2 < |v| * 10 ^ p) :
    (0 < fixedPoint rnd p v ↔ 0 < v) ∧ (fixedPoint rnd p v < 0 ↔ v < 0) := by
  have h10 : (0 : ℚ) < 10 ^ p := by positivity
  have hn := abs_le.1 (hr (v * 10 ^ p))
  rw [fixedPoint, div_pos_iff_of_pos_right h10, div_neg_iff]
  have hneg : ¬ (10 : ℚ) ^ p < 0 := by push Not; exact h10.le
  simp only [hneg, and_false, h10, and_true, false_or]
  rcases lt_trichotomy v 0 with hv | hv | hv
  · rw [abs_of_neg hv] at h
    have : (rnd (v * 10 ^ p) : ℚ) < 0 := by nlinarith
    constructor
    · constructor <;> intro <;> linarith
    · exact ⟨fun _ => hv, fun _ => this⟩
  · subst hv; norm_num at h
  · rw [abs_of_pos hv] at h
    have : (0 : ℚ) < rnd (v * 10 ^ p) := by nlinarith
    constructor
    · exact ⟨fun _ => hv, fun _ => this⟩
    · constructor <;> intro <;> linarith

theorem scaled_bounds {p : ℕ} {v : ℚ} (h : v ≠ 0) :
    (10 : ℚ) ^ p ≤ |v / 10 ^ (decade v - p)| ∧ |v / 10 ^ (decade v - p)| < 10 ^ (p + 1) := by
  obtain ⟨h1, h2⟩ := decade_spec h
  have hp := ten_zpow_pos (decade v - p)
  rw [abs_div, abs_of_pos hp, le_div_iff₀ hp, div_lt_iff₀ hp]
  constructor
  · calc (10 : ℚ) ^ p * 10 ^ (decade v - p) = 10 ^ decade v := by
          rw [← zpow_natCast, ← zpow_add₀ (by norm_num)]; congr 1; ring
      _ ≤ |v| := h1
  · calc |v| < 10 ^ (decade v + 1) := h2
      _ = (10 : ℚ) ^ (p + 1) * 10 ^ (decade v - p) := by
          rw [← zpow_natCast, ← zpow_add₀ (by norm_num)]; congr 1; push_cast; ring

theorem natAbs_cast (z : ℤ) : ((z.natAbs : ℕ) : ℚ) = |(z : ℚ)| := by
  rw [← Int.cast_abs, Int.abs_eq_natAbs]; simp

/-- The digits shown have the right number of places, or are the next power of ten. -/
theorem digits_bounds {rnd : ℚ → ℤ} (hr : Nearest rnd) {p : ℕ} {v : ℚ} (h : v ≠ 0) :
    10 ^ p ≤ (digits rnd p v).natAbs ∧ (digits rnd p v).natAbs ≤ 10 ^ (p + 1) := by
  obtain ⟨h1, h2⟩ := scaled_bounds (p := p) h
  have h3 : |(digits rnd p v : ℚ) - v / 10 ^ (decade v - p)| ≤ 1 / 2 := hr (v / 10 ^ (decade v - p))
  have h4 : |(digits rnd p v : ℚ)| - |v / 10 ^ (decade v - p)| ≤ 1 / 2 := (abs_sub_abs_le_abs_sub _ _).trans h3
  have h5 : |v / 10 ^ (decade v - p)| - |(digits rnd p v : ℚ)| ≤ 1 / 2 := by
    rw [abs_sub_comm] at h3; exact (abs_sub_abs_le_abs_sub _ _).trans h3
  rw [← natAbs_cast] at h4 h5
  constructor
  · by_contra hlt
    have : ((digits rnd p v).natAbs : ℚ) + 1 ≤ ((10 ^ p : ℕ) : ℚ) := by exact_mod_cast Nat.lt_of_not_le hlt
    push_cast at this
    linarith
  · by_contra hlt
    have : (((10 ^ (p + 1) : ℕ) : ℚ)) + 1 ≤ ((digits rnd p v).natAbs : ℚ) := by exact_mod_cast Nat.lt_of_not_le hlt
    push_cast at this
    linarith

theorem sciExponent_spec {rnd : ℚ → ℤ} (hr : Nearest rnd) {p : ℕ} {v : ℚ} (h : v ≠ 0) :
    sciExponent rnd p v ≤ decade v + 1 ∧ 1 / 2 < |v| * 10 ^ (-sciExponent rnd p v) := by
  obtain ⟨h1, h2⟩ := decade_spec h
  rw [sciExponent]
  split_ifs with hc
  · refine ⟨le_refl _, ?_⟩
    simp only [carries, decide_eq_true_eq] at hc
    have h3 : |(digits rnd p v : ℚ) - v / 10 ^ (decade v - p)| ≤ 1 / 2 := hr (v / 10 ^ (decade v - p))
    have h5 : |(digits rnd p v : ℚ)| - |v / 10 ^ (decade v - p)| ≤ 1 / 2 := (abs_sub_abs_le_abs_sub _ _).trans h3
    rw [← natAbs_cast, hc, abs_div, abs_of_pos (ten_zpow_pos _)] at h5
    have hp := ten_zpow_pos (decade v - p)
    have e : |v| * 10 ^ (-(decade v + 1)) = |v| / 10 ^ (decade v - p) / 10 ^ (p + 1) := by
      rw [zpow_neg, show decade v + 1 = (decade v - p) + ((p + 1 : ℕ) : ℤ) by push_cast; ring, zpow_add₀ (by norm_num), zpow_natCast]
      field_simp
    rw [e, lt_div_iff₀ (by positivity)]
    have : (1 : ℚ) ≤ 10 ^ p := one_le_pow₀ (by norm_num)
    push_cast at h5
    rw [pow_succ] at h5 ⊢
    linarith
  · refine ⟨by omega, ?_⟩
    rw [zpow_neg, ← div_eq_mul_inv, lt_div_iff₀ (ten_zpow_pos _)]
    have := ten_zpow_pos (decade v)
    linarith

theorem significand_spec {rnd : ℚ → ℤ} (hr : Nearest rnd) (prec : ℕ) {d : ℚ} (hd : d ≠ 0) (exp : ℤ) :
    |significand rnd prec d exp * 10 ^ exp - d| ≤ 1 / 2 * 10 ^ (exp - prec) ∧
      (0 < significand rnd prec d exp ↔ 0 < d) ∧ (significand rnd prec d exp < 0 ↔ d < 0) := by
  have he := ten_zpow_pos exp
  have hne := ten_zpow_pos (-exp)
  have key : ∀ p : ℕ, prec ≤ p → |fixedPoint rnd p (d * 10 ^ (-exp)) * 10 ^ exp - d| ≤ 1 / 2 * 10 ^ (exp - prec) := by
    intro p hp
    have h1 := fixedPoint_near hr p (d * 10 ^ (-exp))
    have e : fixedPoint rnd p (d * 10 ^ (-exp)) * 10 ^ exp - d = (fixedPoint rnd p (d * 10 ^ (-exp)) - d * 10 ^ (-exp)) * 10 ^ exp := by
      rw [sub_mul, mul_assoc, ← zpow_add₀ (by norm_num : (10 : ℚ) ≠ 0)]; simp
    rw [e, abs_mul, abs_of_pos he]
    calc |fixedPoint rnd p (d * 10 ^ (-exp)) - d * 10 ^ (-exp)| * 10 ^ exp ≤ 1 / 2 / 10 ^ p * 10 ^ exp := mul_le_mul_of_nonneg_right h1 he.le
      _ ≤ 1 / 2 / 10 ^ prec * 10 ^ exp := by
          refine mul_le_mul_of_nonneg_right ?_ he.le
          exact div_le_div_of_nonneg_left (by norm_num) (by positivity) (pow_le_pow_right₀ (by norm_num) hp)
      _ = 1 / 2 * 10 ^ (exp - prec) := by
          rw [zpow_sub₀ (by norm_num), zpow_natCast]; ring
  have sign : ∀ p : ℕ, 1 / 2 < |d| * 10 ^ (-exp) * 10 ^ p →
      (0 < fixedPoint rnd p (d * 10 ^ (-exp)) ↔ 0 < d) ∧ (fixedPoint rnd p (d * 10 ^ (-exp)) < 0 ↔ d < 0) := by
    intro p hp
    have := fixedPoint_sign hr p (d * 10 ^ (-exp)) (by rw [abs_mul, abs_of_pos hne]; exact hp)
    rw [this.1, this.2, mul_pos_iff_of_pos_right hne, mul_neg_iff]
    have hneg : ¬ (10 : ℚ) ^ (-exp) < 0 := by push Not; exact hne.le
    simp only [hneg, and_false, hne, and_true, false_or]
  rw [significand]
  split_ifs with hs
  · obtain ⟨h1, h2⟩ := sciExponent_spec hr (p := prec) hd
    have h3 : decade d < exp - prec := by
      by_contra hge
      have : (10 : ℚ) ^ (exp - prec) ≤ 10 ^ decade d := zpow_le_zpow_right₀ (by norm_num) (by omega)
      linarith [(decade_spec hd).1]
    have hcast : (((sciExponent rnd prec d - exp).natAbs : ℕ) : ℤ) = exp - sciExponent rnd prec d := by omega
    refine ⟨key _ (by omega), sign _ ?_⟩
    rw [← zpow_natCast, hcast, mul_assoc, ← zpow_add₀ (by norm_num)]
    convert h2 using 3
    ring
  · refine ⟨key _ le_rfl, sign _ ?_⟩
    push Not at hs
    calc (1 : ℚ) / 2 < 1 := by norm_num
      _ = 10 ^ (exp - prec) * 10 ^ (-exp) * 10 ^ prec := by
          rw [← zpow_natCast, ← zpow_add₀ (by norm_num), ← zpow_add₀ (by norm_num), show exp - (prec : ℤ) + -exp + prec = 0 by ring, zpow_zero]
      _ ≤ |d| * 10 ^ (-exp) * 10 ^ prec := by gcongr

/-! ## C89 -/

/-- **C89.** The errors shown, in the unit shown, are the computed ones up to half a unit of the last of `prec` decimals; an error is shown as
zero only if it is zero, and a positive (negative) error with a plus (minus) sign, however small it is compared with the value. -/
theorem C89_errors {rnd : ℚ → ℤ} (hr : Nearest rnd) (vmid vmin vmax : ℚ) (prec minExp maxExp : ℕ) (s : Shown)
    (h : report rnd vmid vmin vmax prec minExp maxExp = some s) :
    |s.upper * 10 ^ s.exp - (vmax - vmid)| ≤ 1 / 2 * 10 ^ (s.exp - prec) ∧ |s.lower * 10 ^ s.exp - (vmin - vmid)| ≤ 1 / 2 * 10 ^ (s.exp - prec) ∧
    (0 < s.upper ↔ vmid < vmax) ∧ (s.upper < 0 ↔ vmax < vmid) ∧ (0 < s.lower ↔ vmid < vmin) ∧ (s.lower < 0 ↔ vmin < vmid) := by
  have key : ∀ (d : ℚ) (e : ℤ), |shownError rnd prec d e * 10 ^ e - d| ≤ 1 / 2 * 10 ^ (e - prec) ∧
      (0 < shownError rnd prec d e ↔ 0 < d) ∧ (shownError rnd prec d e < 0 ↔ d < 0) := by
    intro d e
    rw [shownError]
    split_ifs with hd
    · exact significand_spec hr prec hd e
    · push Not at hd
      subst hd
      have := ten_zpow_pos (e - prec)
      refine ⟨by simp; positivity, Iff.rfl, Iff.rfl⟩
  have main : ∀ e, (s.upper = shownError rnd prec (vmax - vmid) e ∧ s.lower = shownError rnd prec (vmin - vmid) e ∧ s.exp = e) →
      |s.upper * 10 ^ s.exp - (vmax - vmid)| ≤ 1 / 2 * 10 ^ (s.exp - prec) ∧ |s.lower * 10 ^ s.exp - (vmin - vmid)| ≤ 1 / 2 * 10 ^ (s.exp - prec) ∧
      (0 < s.upper ↔ vmid < vmax) ∧ (s.upper < 0 ↔ vmax < vmid) ∧ (0 < s.lower ↔ vmid < vmin) ∧ (s.lower < 0 ↔ vmin < vmid) := by
    rintro e ⟨h1, h2, h3⟩
    obtain ⟨a1, a2, a3⟩ := key (vmax - vmid) e
    obtain ⟨b1, b2, b3⟩ := key (vmin - vmid) e
    rw [sub_pos] at a2 b2
    rw [sub_neg] at a3 b3
    rw [← h1, ← h3] at a1
    rw [← h1] at a2 a3
    rw [← h2, ← h3] at b1
    rw [← h2] at b2 b3
    exact ⟨a1, b1, a2, a3, b2, b3⟩
  rw [report] at h
  split_ifs at h with h0 h1
  · cases h; exact main _ ⟨rfl, rfl, rfl⟩
  · cases h; exact main 0 ⟨rfl, rfl, rfl⟩

/-- **C89 (restricted).** The value shown is the value up to half a unit of the last decimal shown, in scientific notation with one digit
before the point, exactly for values of at most `10^-min_exponent` or at least `10^max_exponent`.

Missing: values whose significand rounds up to the next power of ten, see `C89_carry_refuted`, and zero, see `C89_zero_refuted`. -/
theorem C89_value_partial {rnd : ℚ → ℤ} (hr : Nearest rnd) (vmid vmin vmax : ℚ) (prec minExp maxExp : ℕ) (h0 : vmid ≠ 0)
    (hc : (|vmid| ≤ 10 ^ (-(minExp : ℤ)) ∨ 10 ^ (maxExp : ℤ) ≤ |vmid|) → |vmid| + 1 / 2 * 10 ^ (decade vmid - prec) < 10 ^ (decade vmid + 1)) :
    ∃ s, report rnd vmid vmin vmax prec minExp maxExp = some s ∧ |s.mid * 10 ^ s.exp - vmid| ≤ 1 / 2 * 10 ^ (s.exp - prec) ∧
      ((|vmid| ≤ 10 ^ (-(minExp : ℤ)) ∨ 10 ^ (maxExp : ℤ) ≤ |vmid|) → 1 ≤ |s.mid| ∧ |s.mid| < 10) ∧
      (¬ (|vmid| ≤ 10 ^ (-(minExp : ℤ)) ∨ 10 ^ (maxExp : ℤ) ≤ |vmid|) → s.exp = 0) := by
  rw [report, if_neg h0]
  by_cases hs : |vmid| ≤ 10 ^ (-(minExp : ℤ)) ∨ 10 ^ (maxExp : ℤ) ≤ |vmid|
  · have hs' : scientific minExp maxExp vmid = true := by simpa [scientific] using hs
    rw [if_pos hs']
    refine ⟨_, rfl, ?_⟩
    have hp := ten_zpow_pos (decade vmid - prec)
    have h3 : |(digits rnd prec vmid : ℚ) - vmid / 10 ^ (decade vmid - prec)| ≤ 1 / 2 := hr (vmid / 10 ^ (decade vmid - prec))
    have h5 : |(digits rnd prec vmid : ℚ)| - |vmid / 10 ^ (decade vmid - prec)| ≤ 1 / 2 := (abs_sub_abs_le_abs_sub _ _).trans h3
    rw [← natAbs_cast] at h5
    have hlt : (digits rnd prec vmid).natAbs < 10 ^ (prec + 1) := by
      have h6 : |vmid / 10 ^ (decade vmid - prec)| + 1 / 2 < 10 ^ (prec + 1) := by
        rw [abs_div, abs_of_pos hp, ← sub_pos]
        have := hc hs
        have e : (10 : ℚ) ^ (decade vmid + 1) = 10 ^ (prec + 1) * 10 ^ (decade vmid - prec) := by
          rw [← zpow_natCast, ← zpow_add₀ (by norm_num)]; congr 1; push_cast; ring
        rw [e] at this
        have : |vmid| / 10 ^ (decade vmid - prec) + 1 / 2 < 10 ^ (prec + 1) := by
          rw [← lt_sub_iff_add_lt, div_lt_iff₀ hp, sub_mul]; linarith
        linarith
      have : ((digits rnd prec vmid).natAbs : ℚ) < ((10 ^ (prec + 1) : ℕ) : ℚ) := by push_cast; linarith
      exact_mod_cast this
    have hnc : carries rnd prec vmid = false := by simp only [carries, decide_eq_false_iff_not]; omega
    have hmid : sciSignificand rnd prec vmid = digits rnd prec vmid / 10 ^ prec := by simp [sciSignificand, hnc]
    simp only [hmid]
    refine ⟨?_, fun _ => ?_, fun h => absurd hs h⟩
    · have e : (digits rnd prec vmid : ℚ) / 10 ^ prec * 10 ^ decade vmid - vmid =
          ((digits rnd prec vmid : ℚ) - vmid / 10 ^ (decade vmid - prec)) * 10 ^ (decade vmid - prec) := by
        rw [sub_mul, div_mul_cancel₀ _ hp.ne', zpow_sub₀ (by norm_num), zpow_natCast]; ring
      rw [e, abs_mul, abs_of_pos hp]
      exact mul_le_mul_of_nonneg_right h3 hp.le
    · rw [abs_div, ← natAbs_cast, abs_of_pos (by positivity : (0 : ℚ) < 10 ^ prec), le_div_iff₀ (by positivity), div_lt_iff₀ (by positivity)]
      have := (digits_bounds hr (p := prec) h0).1
      constructor
      · rw [one_mul]; exact_mod_cast this
      · have e : (10 : ℚ) * 10 ^ prec = ((10 ^ (prec + 1) : ℕ) : ℚ) := by push_cast; ring
        rw [e]; exact_mod_cast hlt
  · have hs' : scientific minExp maxExp vmid = false := by simp only [scientific, decide_eq_false_iff_not]; exact hs
    rw [if_neg (by simp [hs'])]
    refine ⟨_, rfl, ?_, fun h => absurd h hs, fun _ => rfl⟩
    have := fixedPoint_near hr prec vmid
    simp only [zpow_zero, mul_one, zero_sub, zpow_neg, zpow_natCast]
    rw [← div_eq_mul_inv]; exact this

/-- **C89 (refuted).** Whenever the significand rounds up to the next power of ten, the value shown is too small by a factor of ten: the
significand is shown as one, with the exponent of the decade below. -/
theorem C89_carry_refuted {rnd : ℚ → ℤ} (hr : Nearest rnd) (vmid vmin vmax : ℚ) (prec minExp maxExp : ℕ) (h0 : vmid ≠ 0)
    (hs : |vmid| ≤ 10 ^ (-(minExp : ℤ)) ∨ 10 ^ (maxExp : ℤ) ≤ |vmid|)
    (hc : 10 ^ (decade vmid + 1) < |vmid| + 1 / 2 * 10 ^ (decade vmid - prec)) :
    ∃ s, report rnd vmid vmin vmax prec minExp maxExp = some s ∧ |s.mid| = 1 ∧ |s.mid * 10 ^ s.exp| < |vmid| / 9 := by
  rw [report, if_neg h0]
  have hs' : scientific minExp maxExp vmid = true := by simpa [scientific] using hs
  rw [if_pos hs']
  refine ⟨_, rfl, ?_⟩
  have hp := ten_zpow_pos (decade vmid - prec)
  have h3 : |(digits rnd prec vmid : ℚ) - vmid / 10 ^ (decade vmid - prec)| ≤ 1 / 2 := hr (vmid / 10 ^ (decade vmid - prec))
  have h5 : |vmid / 10 ^ (decade vmid - prec)| - |(digits rnd prec vmid : ℚ)| ≤ 1 / 2 := by
    rw [abs_sub_comm] at h3; exact (abs_sub_abs_le_abs_sub _ _).trans h3
  rw [← natAbs_cast, abs_div, abs_of_pos hp] at h5
  have e : (10 : ℚ) ^ (decade vmid + 1) = 10 ^ (prec + 1) * 10 ^ (decade vmid - prec) := by
    rw [← zpow_natCast, ← zpow_add₀ (by norm_num)]; congr 1; push_cast; ring
  have h6 : (10 : ℚ) ^ (prec + 1) < |vmid| / 10 ^ (decade vmid - prec) + 1 / 2 := by
    rw [← sub_lt_iff_lt_add, lt_div_iff₀ hp, sub_mul, ← e]; linarith
  have hge : 10 ^ (prec + 1) ≤ (digits rnd prec vmid).natAbs := by
    by_contra hlt
    have : ((digits rnd prec vmid).natAbs : ℚ) + 1 ≤ ((10 ^ (prec + 1) : ℕ) : ℚ) := by exact_mod_cast Nat.lt_of_not_le hlt
    push_cast at this
    linarith
  have heq : (digits rnd prec vmid).natAbs = 10 ^ (prec + 1) := le_antisymm (digits_bounds hr h0).2 hge
  have hcar : carries rnd prec vmid = true := by simp [carries, heq]
  have hmid : |sciSignificand rnd prec vmid| = 1 := by
    simp only [sciSignificand, hcar, if_true]
    rw [abs_div, ← natAbs_cast, heq]
    push_cast
    rw [abs_of_pos (by positivity), div_self (by positivity)]
  refine ⟨hmid, ?_⟩
  simp only
  rw [abs_mul, hmid, one_mul, abs_of_pos (ten_zpow_pos _)]
  have hdec := ten_zpow_pos (decade vmid)
  have h7 : (10 : ℚ) ^ (decade vmid - prec) ≤ 10 ^ decade vmid := zpow_le_zpow_right₀ (by norm_num) (by omega)
  have h8 : (10 : ℚ) ^ (decade vmid + 1) = 10 * 10 ^ decade vmid := by rw [zpow_add₀ (by norm_num)]; ring
  rw [h8] at hc
  linarith

/-- **C89 (refuted).** A value of zero cannot be reported at all. -/
theorem C89_zero_refuted (rnd : ℚ → ℤ) (vmin vmax : ℚ) (prec minExp maxExp : ℕ) : report rnd 0 vmin vmax prec minExp maxExp = none := by
  simp [report]

/-! ### Examples -/

theorem round_nearest : Nearest round := fun x => by rw [abs_sub_comm]; exact abs_sub_round x

theorem decade_eq {v : ℚ} {k : ℤ} (h1 : (10 : ℚ) ^ k ≤ |v|) (h2 : |v| < 10 ^ (k + 1)) : decade v = k := by
  have hv : v ≠ 0 := by rintro rfl; simp at h1; linarith [ten_zpow_pos k]
  obtain ⟨a, b⟩ := decade_spec hv
  have c1 : k < decade v + 1 := (zpow_lt_zpow_iff_right₀ (by norm_num : (1 : ℚ) < 10)).1 (lt_of_le_of_lt h1 b)
  have c2 : decade v < k + 1 := (zpow_lt_zpow_iff_right₀ (by norm_num : (1 : ℚ) < 10)).1 (lt_of_le_of_lt a h2)
  omega

theorem decade_9999 : decade 9999 = 3 := decade_eq (by norm_num [abs_of_pos]) (by norm_num [abs_of_pos])

/-- The median 9999 is shown as `1.00 × 10^3`. -/
example : ∃ s, report round 9999 9000 11000 2 1 2 = some s ∧ |s.mid| = 1 ∧ |s.mid * 10 ^ s.exp| < 1111 := by
  obtain ⟨s, h1, h2, h3⟩ := C89_carry_refuted round_nearest 9999 9000 11000 2 1 2 (by norm_num) (.inr (by norm_num [abs_of_pos]))
    (by rw [decade_9999]; norm_num [abs_of_pos])
  exact ⟨s, h1, h2, by rw [abs_of_pos (by norm_num : (0 : ℚ) < 9999)] at h3; linarith⟩

/-- 4321 is shown within 5 of it. -/
example : ∃ s, report round 4321 4300 4400 2 1 2 = some s ∧ |s.mid * 10 ^ s.exp - 4321| ≤ 1 / 2 * 10 ^ (s.exp - 2) := by
  have hd : decade 4321 = 3 := decade_eq (by norm_num [abs_of_pos]) (by norm_num [abs_of_pos])
  obtain ⟨s, h1, h2, -⟩ := C89_value_partial round_nearest 4321 4300 4400 2 1 2 (by norm_num) (by rw [hd]; norm_num [abs_of_pos])
  exact ⟨s, h1, h2⟩

end Elisa.Util.Report
