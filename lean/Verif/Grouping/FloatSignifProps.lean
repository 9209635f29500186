import Verif.Grouping.FloatGvNearProps
import Verif.Grouping.FloatOptsigProps
import Verif.Grouping.FloatSignif

/-! # Grouping by significance in double precision: what is computed is what the exact rule says -/

namespace Elisa.Grouping.Fl

open Elisa Elisa.Grouping Elisa.Infer.Fl

/-! ## Li-Ma -/

/-- The decisions of the code on the intervals of channels. -/
def LimaRight (F : Impl) (lg : ℝ → ℝ) (on off : List ℕ) (d : RatioData) (sig : ℝ) : Prop :=
  ∀ a b, a < b → b ≤ on.length → reaches sig (limaF F.rnd lg (total on a b : ℕ) (total off a b : ℕ) (F.ratio d a b)) =
    decide (sig ≤ significanceLima (total on a b : ℕ) (total off a b : ℕ) (d.ratio a b))

theorem limaAt_whole {F : Impl} (h : F.Legal) (lg : ℝ → ℝ) (on off : List ℕ) (d : RatioData) (h1 : on.sum ≤ 2 ^ 53) (h2 : off.sum ≤ 2 ^ 53) (hl : on.length = off.length) {a b : ℕ} (hab : a ≤ b)
    (hb : b ≤ on.length) : F.limaAt lg (on.map fun k : ℕ => (k : ℝ)) (off.map fun k : ℕ => (k : ℝ)) d a b = limaF F.rnd lg (total on a b : ℕ) (total off a b : ℕ) (F.ratio d a b) := by
  unfold Impl.limaAt
  rw [C157_whole h on h1 hab hb, C157_whole h off h2 hab (hl ▸ hb), total_cast, total_cast]

theorem reduceat_whole {F : Impl} (h : F.Legal) (xs : List ℕ) (hs : xs.sum ≤ 2 ^ 53) {idx : List ℕ} (hp : idx.Pairwise (· < ·)) :
    F.reduceat (xs.map fun k : ℕ => (k : ℝ)) idx = (edges idx xs.length).map fun e => ((total xs e.1 e.2 : ℕ) : ℝ) := by
  have e1 := reduceat_exact h xs hs idx
  have e2 := reduceat_real xs idx
  rw [← e2] at e1
  have : asFloat xs = xs.map fun k : ℕ => (k : ℝ) := rfl
  rw [this] at e1
  rw [e1, reduceat_eq _ _ hp, List.length_map]
  simp only [total_cast]

theorem limaSuccess_same {F : Impl} (h : F.Legal) {lg : ℝ → ℝ} {on off : List ℕ} {d : RatioData} {sig : ℝ} (h1 : on.sum ≤ 2 ^ 53) (h2 : off.sum ≤ 2 ^ 53) (hl : on.length = off.length)
    (hk : LimaRight F lg on off d sig) {r : List ℕ} (hr : Desc r on.length) :
    F.limaSuccess lg (on.map fun k : ℕ => (k : ℝ)) (off.map fun k : ℕ => (k : ℝ)) d sig r.reverse =
      limaSuccess (on.map fun k : ℕ => (k : ℝ)) (off.map fun k : ℕ => (k : ℝ)) d sig r.reverse := by
  have hp : r.reverse.Pairwise (· < ·) := by rw [List.pairwise_reverse]; exact hr.pw
  rw [Bool.eq_iff_iff, limaSuccess_iff (by simpa using hl) (by simpa using hr), List.length_map]
  unfold Impl.limaSuccess
  rw [reduceat_whole h on h1 hp, reduceat_whole h off h2 hp, List.length_map, ← hl, List.zip_map', List.zip_map', List.all_map, List.all_eq_true]
  simp only [mem_edges_reverse, Function.comp, total_cast]
  refine forall_congr' fun e => forall_congr' fun he => ?_
  obtain ⟨g1, g2⟩ := mem_revEdges_lt hr.pw hr.lt he
  rw [hk _ _ g1 g2, decide_eq_true_eq]

theorem optsig_lima_full {F : Impl} (h : F.Legal) {lg : ℝ → ℝ} (bint on off : List ℕ) (d : RatioData) (sig : ℝ) (hb : ∀ x ∈ bint, 1 ≤ x) (h1 : on.sum ≤ 2 ^ 53) (h2 : off.sum ≤ 2 ^ 53)
    (hk : on.length = off.length → LimaRight F lg on off d sig) :
    F.groupOptsigLima lg bint (on.map fun k : ℕ => (k : ℝ)) (off.map fun k : ℕ => (k : ℝ)) d sig =
      groupOptsigLima bint (on.map fun k : ℕ => (k : ℝ)) (off.map fun k : ℕ => (k : ℝ)) d sig := by
  unfold Impl.groupOptsigLima groupOptsigLima
  by_cases hlen : bint.length = (on.map fun k : ℕ => (k : ℝ)).length ∧ (on.map fun k : ℕ => (k : ℝ)).length = (off.map fun k : ℕ => (k : ℝ)).length
  swap
  · rw [if_pos hlen, if_pos hlen]
  rw [if_neg (not_not.2 hlen), if_neg (not_not.2 hlen)]
  split
  · rfl
  dsimp only
  have hl1 : bint.length = on.length := by simpa using hlen.1
  have hl2 : on.length = off.length := by simpa using hlen.2
  have hk := hk hl2
  rcases Nat.eq_zero_or_pos bint.length with h0 | hpos
  · have e1 : on = [] := List.length_eq_zero_iff.1 (by omega)
    have e2 : off = [] := List.length_eq_zero_iff.1 (by omega)
    subst e1 e2
    rw [h0]
    rfl
  have hloop := optSig_same (ok := fun a b : ℕ => reaches sig (F.limaAt lg (on.map fun k : ℕ => (k : ℝ)) (off.map fun k : ℕ => (k : ℝ)) d a b))
      (ok' := limaOk (on.map fun k : ℕ => (k : ℝ)) (off.map fun k : ℕ => (k : ℝ)) d sig) hb hpos (fun a b hab hb => by
    rw [limaOk, intervalSum_prefix _ hab.le (by rw [List.length_map]; omega), intervalSum_prefix _ hab.le (by rw [List.length_map]; omega), total_cast, total_cast,
      limaAt_whole h lg on off d h1 h2 hl2 hab.le (by omega)]
    exact hk a b hab (by omega))
  rw [hloop]
  have hdesc := optSig_desc (ok := limaOk (on.map fun k : ℕ => (k : ℝ)) (off.map fun k : ℕ => (k : ℝ)) d sig) hb hpos
  generalize optLoop (fun i j => sigExtend (limaOk (on.map fun k : ℕ => (k : ℝ)) (off.map fun k : ℕ => (k : ℝ)) d sig) (bint.length - j) i j) bint bint.length bint.length 0 [] = r at *
  rw [hl1] at hdesc ⊢
  rw [limaSuccess_same h h1 h2 hl2 hk hdesc]

theorem sig_lima_full {F : Impl} (h : F.Legal) {lg : ℝ → ℝ} (on off : List ℕ) (d : RatioData) (sig : ℝ) (h1 : on.sum ≤ 2 ^ 53) (h2 : off.sum ≤ 2 ^ 53)
    (hk : on.length = off.length → LimaRight F lg on off d sig)
    (hf : on.length = off.length → ∀ a < on.length, falls sig (limaF F.rnd lg (total on a on.length : ℕ) (total off a on.length : ℕ) (F.ratio d a on.length)) =
      !decide (sig ≤ significanceLima (total on a on.length : ℕ) (total off a on.length : ℕ) (d.ratio a on.length))) :
    F.groupSigLima lg (on.map fun k : ℕ => (k : ℝ)) (off.map fun k : ℕ => (k : ℝ)) d sig =
      groupSigLima (on.map fun k : ℕ => (k : ℝ)) (off.map fun k : ℕ => (k : ℝ)) d sig := by
  unfold Impl.groupSigLima groupSigLima
  by_cases hlen : on.length = off.length
  swap
  · have hx : (on.map fun k : ℕ => (k : ℝ)).length ≠ (off.map fun k : ℕ => (k : ℝ)).length := by simpa using hlen
    rw [if_pos hx, if_pos hx]
  have hx : ¬ (on.map fun k : ℕ => (k : ℝ)).length ≠ (off.map fun k : ℕ => (k : ℝ)).length := by simpa using hlen
  rw [if_neg hx, if_neg hx]
  split
  · rfl
  by_cases hne : on = []
  · subst hne; rfl
  have hy : ¬ (on.map fun k : ℕ => (k : ℝ)) = [] := by simpa using hne
  rw [if_neg hy, if_neg hy]
  dsimp only
  rw [List.length_map]
  have hpos : 0 < on.length := List.length_pos_of_ne_nil hne
  have hk := hk hlen
  have hloop : greedyLoopF (F.limaAt lg (on.map fun k : ℕ => (k : ℝ)) (off.map fun k : ℕ => (k : ℝ)) d) sig on.length 0 0 [0] =
      greedyLoop (limaOk (on.map fun k : ℕ => (k : ℝ)) (off.map fun k : ℕ => (k : ℝ)) d sig) on.length 0 0 [0] := by
    refine greedy_same (nd := on.length) (fun a b hab hb => ?_) (fun a hab => ?_) _ _ _ _ (le_refl _) (by omega)
    · rw [limaOk, intervalSum_prefix _ hab.le (by rwa [List.length_map]), intervalSum_prefix _ hab.le (by rw [List.length_map]; omega), total_cast, total_cast,
        limaAt_whole h lg on off d h1 h2 hlen hab.le hb]
      exact hk a b hab hb
    · rw [limaOk, intervalSum_prefix _ hab.le (by rw [List.length_map]), intervalSum_prefix _ hab.le (by rw [List.length_map]; omega), total_cast, total_cast,
        limaAt_whole h lg on off d h1 h2 hlen hab.le (le_refl _)]
      exact hf hlen a hab
  rw [hloop]
  have hdesc := (greedy_out (limaOk (on.map fun k : ℕ => (k : ℝ)) (off.map fun k : ℕ => (k : ℝ)) d sig) hpos).desc
  generalize greedyLoop (limaOk (on.map fun k : ℕ => (k : ℝ)) (off.map fun k : ℕ => (k : ℝ)) d sig) on.length 0 0 [0] = r at *
  rw [limaSuccess_same h h1 h2 hlen hk hdesc]

/-- The ratios of all intervals are computed with a relative error of at most `δ`. -/
def RatiosNear (F : Impl) (d : RatioData) (len : ℕ) (δ : ℝ) : Prop :=
  ∀ a b, a < b → b ≤ len → 0 < d.ratio a b ∧ In (-30) 30 (F.ratio d a b) ∧ |F.ratio d a b - d.ratio a b| ≤ δ * d.ratio a b

/-- **C162 (optimal grouping by Li-Ma significance), partial.** At most a million counts, ratios computed with a relative error of at most `5e-14` (C157 says when), a wanted significance above one, and
no interval of channels with a significance within two millionths of it: the optimal grouping, everything computed in double precision, is the exact one, with the same report of success.
What is missing: intervals within two millionths of the threshold. -/
theorem C162_optsig_lima_partial {F : Impl} {lg} (h : F.Legal) (hl : Accurate lg) (bint on off : List ℕ) (d : RatioData) (sig : ℝ) (hb : ∀ x ∈ bint, 1 ≤ x) (hsum : on.sum + off.sum ≤ 10 ^ 6)
    (hr : RatiosNear F d on.length (1 / (2 * 10 ^ 13))) (hsig : 1001 / 1000 ≤ sig)
    (hS : ∀ a b, a < b → b ≤ on.length → 2 / 10 ^ 6 < |significanceLima (total on a b : ℕ) (total off a b : ℕ) (d.ratio a b) - sig|) :
    F.groupOptsigLima lg bint (on.map fun k : ℕ => (k : ℝ)) (off.map fun k : ℕ => (k : ℝ)) d sig =
      groupOptsigLima bint (on.map fun k : ℕ => (k : ℝ)) (off.map fun k : ℕ => (k : ℝ)) d sig := by
  refine optsig_lima_full h bint on off d sig hb (by omega) (by omega) fun hlen a b hab hb => ?_
  obtain ⟨g1, g2, g3⟩ := hr a b hab hb
  have t1 := total_le_sum on (a := a) hb
  have t2 := total_le_sum off (a := a) (hlen ▸ hb)
  exact lima_reaches_near h.nearest hl (by omega) g1 g2 g3 hsig (hS a b hab hb)

/-- **C162 (grouping by Li-Ma significance), partial.** The same for the grouping from low to high channels, if moreover no interval that ends at the last channel has a significance below
two thousandths in size. -/
theorem C162_sig_lima_partial {F : Impl} {lg} (h : F.Legal) (hl : Accurate lg) (on off : List ℕ) (d : RatioData) (sig : ℝ) (hsum : on.sum + off.sum ≤ 10 ^ 6)
    (hr : RatiosNear F d on.length (1 / (2 * 10 ^ 13))) (hsig : 1001 / 1000 ≤ sig)
    (hS : ∀ a b, a < b → b ≤ on.length → 2 / 10 ^ 6 < |significanceLima (total on a b : ℕ) (total off a b : ℕ) (d.ratio a b) - sig|)
    (hE : ∀ a < on.length, 2 / 10 ^ 3 ≤ |significanceLima (total on a on.length : ℕ) (total off a on.length : ℕ) (d.ratio a on.length)|) :
    F.groupSigLima lg (on.map fun k : ℕ => (k : ℝ)) (off.map fun k : ℕ => (k : ℝ)) d sig =
      groupSigLima (on.map fun k : ℕ => (k : ℝ)) (off.map fun k : ℕ => (k : ℝ)) d sig := by
  have cnt : on.length = off.length → ∀ a b, b ≤ on.length → total on a b + total off a b ≤ 10 ^ 6 := by
    intro hlen a b hb
    have t1 := total_le_sum on (a := a) hb
    have t2 := total_le_sum off (a := a) (hlen ▸ hb)
    omega
  refine sig_lima_full h on off d sig (by omega) (by omega) (fun hlen a b hab hb => ?_) fun hlen a hab => ?_
  · obtain ⟨g1, g2, g3⟩ := hr a b hab hb
    exact lima_reaches_near h.nearest hl (cnt hlen a b hb) g1 g2 g3 hsig (hS a b hab hb)
  · obtain ⟨g1, g2, g3⟩ := hr a _ hab (le_refl _)
    exact lima_falls_near h.nearest hl (cnt hlen a _ (le_refl _)) g1 g2 g3 hsig (hS a _ hab (le_refl _)) (hE a hab)

/-! ## Gaussian background -/

/-- Backgrounds and their errors, one of each per channel: doubles that are not negative, errors of zero or at least `2 ^ -400`, and no overflow. -/
structure GvData (bs s : List ℝ) (len : ℕ) : Prop where
  backs : ∀ x ∈ bs, Rep x ∧ 0 ≤ x
  errors : ∀ x ∈ s, x = 0 ∨ 2 ^ (-400 : ℤ) ≤ |x|
  back : bs.sum ≤ 2 ^ (900 : ℤ)
  variance : (s.map fun x => x * x).sum ≤ 2 ^ (899 : ℤ)
  few : len ≤ 2 ^ 25

/-- No interval of channels has only a tiny share of what there is up to its end. -/
def Shares (xs : List ℝ) (len : ℕ) (δ : ℝ) : Prop :=
  ∀ i j, i < j → j ≤ len → ((j - i : ℕ) + 4) * 2 ^ (-52 : ℤ) * total xs 0 j ≤ δ * total xs i j

theorem squares_near {rnd : ℝ → ℝ} (hr : Nearest rnd) {s : List ℝ} (hs : ∀ x ∈ s, x = 0 ∨ 2 ^ (-400 : ℤ) ≤ |x|) (hsm : (s.map fun x => x * x).sum ≤ 2 ^ (899 : ℤ)) :
    ∀ x ∈ s, Rep (rnd (x * x)) ∧ |rnd (x * x) - x * x| ≤ unit * (x * x) := by
  intro x hx
  have size : x * x ≤ 2 ^ (899 : ℤ) := (List.single_le_sum (by
    intro y hy
    obtain ⟨z, -, rfl⟩ := List.mem_map.1 hy
    exact mul_self_nonneg z) _ (List.mem_map_of_mem (f := fun x => x * x) hx)).trans hsm
  refine ⟨hr.rep (by rw [abs_of_nonneg (mul_self_nonneg x)]; exact size.trans (zpow_le (by norm_num))), ?_⟩
  rcases hs x hx with rfl | hc
  · have : rnd 0 = 0 := hr.fix rep_zero (by rw [abs_zero]; exact (two_zpow_pos _).le)
    norm_num [this]
  · refine hr.rel (p := -800) (q := 899) ⟨?_, size⟩ (by norm_num) (by norm_num)
    rw [← sq, ← sq_abs, show (2 : ℝ) ^ (-800 : ℤ) = (2 ^ (-400 : ℤ)) ^ 2 by rw [← zpow_natCast, ← zpow_mul]; norm_num]
    exact pow_le_pow_left₀ (two_zpow_pos _).le hc 2

theorem length_channels (xs : List ℝ) {a b : ℕ} (hb : b ≤ xs.length) : (channels xs a b).length = b - a := by
  unfold channels
  rw [List.length_drop, List.length_take, min_eq_left hb]

theorem sum_channels_near {F : Impl} (h : F.Legal) (t : ℕ) {xs : List ℝ} (hx : ∀ x ∈ xs, Rep x ∧ 0 ≤ x) (hs : xs.sum ≤ 2 ^ (901 : ℤ)) (hn : xs.length ≤ 2 ^ 25) {i j : ℕ} (hj : j ≤ xs.length) :
    |F.sum t (channels xs i j) - total xs i j| ≤ (j - i : ℕ) * 2 ^ (-52 : ℤ) * total xs i j := by
  have hmem : ∀ x ∈ channels xs i j, Rep x ∧ 0 ≤ x := fun x m => hx x ((channels_sub xs i j).subset m)
  have hle : (channels xs i j).sum ≤ xs.sum := (channels_sub xs i j).sum_le_sum fun x m => (hx x m).2
  have := sum_error h t (channels xs i j) hmem (hle.trans (hs.trans (by
    rw [← zpow_natCast]
    exact zpow_le (by norm_num)))) (by rw [length_channels _ hj]; exact le_trans (by omega) (hn.trans (by norm_num)))
  rwa [length_channels _ hj, channels_sum] at this

section
variable {F : Impl} {lg : ℝ → ℝ} {ns : List ℕ} {bs s : List ℝ} {d : RatioData} {sig δ : ℝ}

/-- The decisions of the code on the intervals of channels. -/
def GvRight (F : Impl) (lg : ℝ → ℝ) (ns : List ℕ) (bs s : List ℝ) (d : RatioData) (sig δ : ℝ) : Prop :=
  ∀ i j, i < j → j ≤ ns.length → ∀ b' v', |b' - total bs i j| ≤ δ * total bs i j → |v' - total (s.map fun x => x * x) i j| ≤ δ * total (s.map fun x => x * x) i j →
    reachesE sig (gvF F.rnd lg (total ns i j : ℕ) b' (F.rnd (Real.sqrt v')) (F.ratio d i j)) =
      decide (sig ≤ significanceGv (total ns i j : ℕ) (total bs i j) (Real.sqrt (total (s.map fun x => x * x) i j)) (d.ratio i j))

theorem gvAt_near (h : F.Legal) (lg : ℝ → ℝ) (d : RatioData) (hns : ns.sum ≤ 2 ^ 53) (hd : GvData bs s ns.length) (hl : bs.length = ns.length) (hl' : s.length = ns.length)
    (hb : Shares bs ns.length δ) (hv : Shares (s.map fun x => x * x) ns.length δ) {i j : ℕ} (hij : i < j) (hj : j ≤ ns.length) :
    ∃ b' v', F.gvAt lg (ns.map fun k : ℕ => (k : ℝ)) bs s d i j = gvF F.rnd lg (total ns i j : ℕ) b' (F.rnd (Real.sqrt v')) (F.ratio d i j) ∧
      |b' - total bs i j| ≤ δ * total bs i j ∧ |v' - total (s.map fun x => x * x) i j| ≤ δ * total (s.map fun x => x * x) i j := by
  have habs : (bs.map fun x => |x|) = bs := by
    conv_rhs => rw [← List.map_id bs]
    exact List.map_congr_left fun x hx => abs_of_nonneg (hd.backs x hx).2
  have hsq : (s.map fun x => x ^ 2) = s.map fun x => x * x := List.map_congr_left fun x _ => sq x
  obtain ⟨c1, c2, v, c3, c4⟩ := C157_gv_partial h ns bs s hns (fun x hx => (hd.backs x hx).1) (by rw [habs]; exact hd.back) hd.errors (by rw [hsq]; exact hd.variance) hd.few hl hl' hij.le hj
  rw [habs] at c2
  rw [hsq] at c4
  refine ⟨_, v, ?_, c2.trans ((mul_le_mul_of_nonneg_right ?_ ?_).trans (hb i j hij hj)), c4.trans (hv i j hij hj)⟩
  · rw [Impl.gvAt, c1, c3, total_cast]
  · exact mul_le_mul_of_nonneg_right (by linarith) (two_zpow_pos _).le
  · unfold total
    refine Finset.sum_nonneg fun k _ => ?_
    simp only [List.getD_eq_getElem?_getD]
    cases hk : bs[k]? with
    | none => simp
    | some x => simpa using (hd.backs x (List.mem_of_getElem? hk)).2

theorem gvReduce_near (h : F.Legal) (hd : GvData bs s ns.length) (hl : bs.length = ns.length) (hl' : s.length = ns.length)
    (hb : Shares bs ns.length δ) (hv : Shares (s.map fun x => x * x) ns.length δ) {i j : ℕ} (hij : i < j) (hj : j ≤ ns.length) :
    |F.sum i (channels bs i j) - total bs i j| ≤ δ * total bs i j ∧
      |F.sum i (channels (s.map fun x => F.rnd (x * x)) i j) - total (s.map fun x => x * x) i j| ≤ δ * total (s.map fun x => x * x) i j := by
  have sq0 : ∀ x ∈ s.map fun x => x * x, 0 ≤ x := by
    intro y hy
    obtain ⟨x, -, rfl⟩ := List.mem_map.1 hy
    exact mul_self_nonneg x
  have le1 := total_le_start (fun x hx => (hd.backs x hx).2) i j
  have le2 := total_le_start sq0 i j
  have tot0 : ∀ xs : List ℝ, (∀ x ∈ xs, 0 ≤ x) → 0 ≤ total xs i j := by
    intro xs hx
    unfold total
    refine Finset.sum_nonneg fun k _ => ?_
    simp only [List.getD_eq_getElem?_getD]
    cases hk : xs[k]? with
    | none => simp
    | some x => simpa using hx x (List.mem_of_getElem? hk)
  have b0 := tot0 bs fun x hx => (hd.backs x hx).2
  have v0 := tot0 _ sq0
  have sn := squares_near h.nearest hd.errors hd.variance
  have u1 : unit ≤ 1 := by unfold unit; norm_num
  have near := total_map_near (f := fun x => F.rnd (x * x)) (g := fun x => x * x) (fun x hx => (sn x hx).2) i j
  have e1 := sum_channels_near h i hd.backs (hd.back.trans (zpow_le (by norm_num))) (hl ▸ hd.few) (i := i) (j := j) (hl ▸ hj)
  have e2 := sum_channels_near h i (xs := s.map fun x => F.rnd (x * x)) (by
      intro y hy
      obtain ⟨x, hx, rfl⟩ := List.mem_map.1 hy
      refine ⟨(sn x hx).1, ?_⟩
      have := (_root_.abs_le.1 (sn x hx).2).1
      have := mul_le_mul_of_nonneg_right u1 (mul_self_nonneg x)
      linarith) (by
      have : (s.map fun x => F.rnd (x * x)).sum ≤ 2 * (s.map fun x => x * x).sum := by
        rw [← List.sum_map_mul_left]
        refine List.sum_le_sum fun x hx => ?_
        have := (_root_.abs_le.1 (sn x hx).2).2
        have := mul_le_mul_of_nonneg_right u1 (mul_self_nonneg x)
        linarith
      refine this.trans ((mul_le_mul_of_nonneg_left hd.variance (by norm_num)).trans ?_)
      have : (2 : ℝ) * 2 ^ (899 : ℤ) = 2 ^ (900 : ℤ) := by rw [show (900 : ℤ) = 899 + 1 by norm_num, zpow_add₀ (by norm_num)]; norm_num [mul_comm]
      rw [this]
      exact zpow_le (by norm_num)) (by rw [List.length_map, hl']; exact hd.few) (i := i) (j := j) (by rw [List.length_map, hl']; exact hj)
  have f1 := hb i j hij hj
  have f2 := hv i j hij hj
  have k0 : (0 : ℝ) ≤ ((j - i : ℕ) : ℝ) := Nat.cast_nonneg _
  have kle : ((j - i : ℕ) : ℝ) ≤ 2 ^ 25 := by exact_mod_cast (show j - i ≤ 2 ^ 25 by have := hd.few; omega)
  generalize ((j - i : ℕ) : ℝ) = k at *
  have w0 : (0 : ℝ) < 2 ^ (-52 : ℤ) := two_zpow_pos _
  have w1 : (2 : ℝ) ^ (-52 : ℤ) ≤ 1 / 2 ^ 26 := by norm_num
  have hu : unit ≤ (2 : ℝ) ^ (-52 : ℤ) := by unfold unit; norm_num
  have hu0 := unit_pos
  generalize (2 : ℝ) ^ (-52 : ℤ) = w at *
  constructor
  · refine e1.trans (le_trans ?_ f1)
    have : k * w * total bs i j ≤ k * w * total bs 0 j := mul_le_mul_of_nonneg_left le1 (by positivity)
    have : 0 ≤ w * total bs 0 j := mul_nonneg w0.le (b0.trans le1)
    linarith
  · refine le_trans ?_ f2
    generalize total (s.map fun x => x * x) i j = T at *
    generalize total (s.map fun x => x * x) 0 j = T0 at *
    generalize total (s.map fun x => F.rnd (x * x)) i j = V at *
    generalize F.sum i (channels (s.map fun x => F.rnd (x * x)) i j) = W at *
    have hV : V ≤ 2 * T := by
      have := (_root_.abs_le.1 near).2
      have := mul_le_mul_of_nonneg_right u1 v0
      linarith
    have hV' : V ≤ T + w * T := by
      have := (_root_.abs_le.1 near).2
      have := mul_le_mul_of_nonneg_right hu v0
      linarith
    have kw : k * w ≤ 1 := by
      have := mul_le_mul kle w1 w0.le (by positivity)
      refine this.trans (by norm_num)
    have g1 : k * w * V ≤ k * w * T + w * T := by
      have a1 := mul_le_mul_of_nonneg_left hV' (mul_nonneg k0 w0.le)
      have a2 := mul_le_mul_of_nonneg_right kw (mul_nonneg w0.le v0)
      have : k * w * (T + w * T) = k * w * T + k * w * (w * T) := by ring
      linarith
    have g2 : unit * T ≤ w * T := mul_le_mul_of_nonneg_right hu v0
    have g3 : |W - T| ≤ |W - V| + |V - T| := abs_sub_le _ _ _
    have g4 : (k + 4) * w * T ≤ (k + 4) * w * T0 := mul_le_mul_of_nonneg_left le2 (by positivity)
    have g5 : 0 ≤ w * T := mul_nonneg w0.le v0
    linarith

theorem gvSuccess_same (h : F.Legal) (hns : ns.sum ≤ 2 ^ 53) (hd : GvData bs s ns.length) (hl : bs.length = ns.length) (hl' : s.length = ns.length)
    (hb : Shares bs ns.length δ) (hv : Shares (s.map fun x => x * x) ns.length δ) (hk : GvRight F lg ns bs s d sig δ) {r : List ℕ} (hr : Desc r ns.length) :
    F.gvSuccess lg (ns.map fun k : ℕ => (k : ℝ)) bs s d sig r.reverse = gvSuccess (ns.map fun k : ℕ => (k : ℝ)) bs s d sig r.reverse := by
  have hp : r.reverse.Pairwise (· < ·) := by rw [List.pairwise_reverse]; exact hr.pw
  rw [Bool.eq_iff_iff, gvSuccess_iff (by simpa using hl.symm) (by omega) (by simpa using hr), List.length_map]
  unfold Impl.gvSuccess
  rw [reduceat_whole h ns hns hp, reduceat_channels _ _ _ hp, reduceat_channels _ _ _ hp, List.length_map, List.length_map, hl, hl', List.zip_map', List.zip_map', List.zip_map', List.all_map, List.all_eq_true]
  simp only [mem_edges_reverse, Function.comp, total_cast]
  refine forall_congr' fun e => forall_congr' fun he => ?_
  obtain ⟨g1, g2⟩ := mem_revEdges_lt hr.pw hr.lt he
  obtain ⟨n1, n2⟩ := gvReduce_near h hd hl hl' hb hv g1 g2
  rw [hk _ _ g1 g2 _ _ n1 n2, decide_eq_true_eq]

/-- **C162 (optimal grouping over a Gaussian background), partial.** No interval of channels has only a tiny share of the background, or of its variance, up to its end; the ratios are computed
with a relative error of at most `δ ≤ 2e-13` (C157 says when); every interval is clear; the wanted significance is above one, and no interval has a significance within
`1e-6 + 1.25e9 δ` of it: the optimal grouping, everything computed in double precision, is the exact one, with the same report of success.
What is missing: intervals close to the threshold, and wider backgrounds, see the counterexample of C159. -/
theorem C162_optsig_gv_partial (h : F.Legal) (hlg : Accurate lg) (bint ns : List ℕ) (bs s : List ℝ) (d : RatioData) (sig δ : ℝ) (hbi : ∀ x ∈ bint, 1 ≤ x) (hns : ns.sum ≤ 2 ^ 53)
    (hd : GvData bs s ns.length) (hδ : 0 ≤ δ) (hδ1 : δ ≤ 2 / 10 ^ 13) (hr : RatiosNear F d ns.length δ) (hb : Shares bs ns.length δ) (hv : Shares (s.map fun x => x * x) ns.length δ)
    (hsig : 1001 / 1000 ≤ sig)
    (hz : ∀ i j, i < j → j ≤ ns.length → GvClear (total ns i j : ℕ) (total bs i j) (total (s.map fun x => x * x) i j) (d.ratio i j))
    (hS : ∀ i j, i < j → j ≤ ns.length → 1 / 10 ^ 6 + 125 * 10 ^ 7 * δ <
      |significanceGv (total ns i j : ℕ) (total bs i j) (Real.sqrt (total (s.map fun x => x * x) i j)) (d.ratio i j) - sig|) :
    F.groupOptsigGv lg bint (ns.map fun k : ℕ => (k : ℝ)) bs s d sig = groupOptsigGv bint (ns.map fun k : ℕ => (k : ℝ)) bs s d sig := by
  have hk : GvRight F lg ns bs s d sig δ := fun i j hij hj b' v' hb' hv' =>
    gv_reaches_near h.nearest hlg (hz i j hij hj) (hr i j hij hj).2.1 hδ hδ1 hb' hv' (hr i j hij hj).2.2 hsig (hS i j hij hj)
  unfold Impl.groupOptsigGv groupOptsigGv
  by_cases hlen : bint.length = (ns.map fun k : ℕ => (k : ℝ)).length ∧ (ns.map fun k : ℕ => (k : ℝ)).length = bs.length ∧ bs.length = s.length
  swap
  · rw [if_pos hlen, if_pos hlen]
  rw [if_neg (not_not.2 hlen), if_neg (not_not.2 hlen)]
  have hsig0 : ¬ sig ≤ 0 := by linarith
  rw [if_neg hsig0, if_neg hsig0]
  dsimp only
  have hl1 : bint.length = ns.length := by simpa using hlen.1
  have hl2 : bs.length = ns.length := by simpa using hlen.2.1.symm
  have hl3 : s.length = ns.length := by have := hlen.2.2; omega
  rcases Nat.eq_zero_or_pos bint.length with h0 | hpos
  · have e1 : ns = [] := List.length_eq_zero_iff.1 (by omega)
    have e2 : bs = [] := List.length_eq_zero_iff.1 (by omega)
    have e3 : s = [] := List.length_eq_zero_iff.1 (by omega)
    subst e1 e2 e3
    rw [h0]
    rfl
  have hloop := optSig_same (ok := fun i j : ℕ => reachesE sig (F.gvAt lg (ns.map fun k : ℕ => (k : ℝ)) bs s d i j))
      (ok' := gvOk (ns.map fun k : ℕ => (k : ℝ)) bs s d sig) hbi hpos (fun i j hij hj => by
    obtain ⟨b', v', c1, c2, c3⟩ := gvAt_near h lg d hns hd hl2 hl3 hb hv hij (hl1 ▸ hj)
    rw [c1, hk i j hij (hl1 ▸ hj) b' v' c2 c3, gvOk, intervalSum_prefix _ hij.le (by rw [List.length_map]; omega), intervalSum_prefix _ hij.le (by omega),
      intervalSum_prefix _ hij.le (by rw [List.length_map]; omega), total_cast])
  rw [hloop]
  have hdesc := optSig_desc (ok := gvOk (ns.map fun k : ℕ => (k : ℝ)) bs s d sig) hbi hpos
  generalize optLoop (fun i j => sigExtend (gvOk (ns.map fun k : ℕ => (k : ℝ)) bs s d sig) (bint.length - j) i j) bint bint.length bint.length 0 [] = r at *
  rw [hl1] at hdesc ⊢
  rw [gvSuccess_same h hns hd hl2 hl3 hb hv hk hdesc]

/-- **C162 (grouping over a Gaussian background), partial.** The same for the grouping from low to high channels, if moreover no interval that ends at the last channel has a significance
below three hundredths in size. -/
theorem C162_sig_gv_partial (h : F.Legal) (hlg : Accurate lg) (ns : List ℕ) (bs s : List ℝ) (d : RatioData) (sig δ : ℝ) (hns : ns.sum ≤ 2 ^ 53)
    (hd : GvData bs s ns.length) (hδ : 0 ≤ δ) (hδ1 : δ ≤ 2 / 10 ^ 13) (hr : RatiosNear F d ns.length δ) (hb : Shares bs ns.length δ) (hv : Shares (s.map fun x => x * x) ns.length δ)
    (hsig : 1001 / 1000 ≤ sig)
    (hz : ∀ i j, i < j → j ≤ ns.length → GvClear (total ns i j : ℕ) (total bs i j) (total (s.map fun x => x * x) i j) (d.ratio i j))
    (hS : ∀ i j, i < j → j ≤ ns.length → 1 / 10 ^ 6 + 125 * 10 ^ 7 * δ <
      |significanceGv (total ns i j : ℕ) (total bs i j) (Real.sqrt (total (s.map fun x => x * x) i j)) (d.ratio i j) - sig|)
    (hE : ∀ i < ns.length, 3 / 10 ^ 2 ≤
      |significanceGv (total ns i ns.length : ℕ) (total bs i ns.length) (Real.sqrt (total (s.map fun x => x * x) i ns.length)) (d.ratio i ns.length)|) :
    F.groupSigGv lg (ns.map fun k : ℕ => (k : ℝ)) bs s d sig = groupSigGv (ns.map fun k : ℕ => (k : ℝ)) bs s d sig := by
  have hk : GvRight F lg ns bs s d sig δ := fun i j hij hj b' v' hb' hv' =>
    gv_reaches_near h.nearest hlg (hz i j hij hj) (hr i j hij hj).2.1 hδ hδ1 hb' hv' (hr i j hij hj).2.2 hsig (hS i j hij hj)
  unfold Impl.groupSigGv groupSigGv
  by_cases hlen : (ns.map fun k : ℕ => (k : ℝ)).length = bs.length ∧ bs.length = s.length
  swap
  · rw [if_pos hlen, if_pos hlen]
  rw [if_neg (not_not.2 hlen), if_neg (not_not.2 hlen)]
  have hsig0 : ¬ sig ≤ 0 := by linarith
  rw [if_neg hsig0, if_neg hsig0]
  by_cases hne : ns = []
  · subst hne; rfl
  have hy : ¬ (ns.map fun k : ℕ => (k : ℝ)) = [] := by simpa using hne
  rw [if_neg hy, if_neg hy]
  dsimp only
  rw [List.length_map]
  have hpos : 0 < ns.length := List.length_pos_of_ne_nil hne
  have hl2 : bs.length = ns.length := by simpa using hlen.1.symm
  have hl3 : s.length = ns.length := by have := hlen.2; omega
  have same : ∀ i j, i < j → j ≤ ns.length → gvOk (ns.map fun k : ℕ => (k : ℝ)) bs s d sig i j =
      decide (sig ≤ significanceGv (total ns i j : ℕ) (total bs i j) (Real.sqrt (total (s.map fun x => x * x) i j)) (d.ratio i j)) := by
    intro i j hij hj
    rw [gvOk, intervalSum_prefix _ hij.le (by rw [List.length_map]; omega), intervalSum_prefix _ hij.le (by omega), intervalSum_prefix _ hij.le (by rw [List.length_map]; omega), total_cast]
  have hloop : greedyLoopE (F.gvAt lg (ns.map fun k : ℕ => (k : ℝ)) bs s d) sig ns.length 0 0 [0] = greedyLoop (gvOk (ns.map fun k : ℕ => (k : ℝ)) bs s d sig) ns.length 0 0 [0] := by
    refine greedyE_same (nd := ns.length) (fun i j hij hj => ?_) (fun i hi => ?_) _ _ _ _ (le_refl _) (by omega)
    · obtain ⟨b', v', c1, c2, c3⟩ := gvAt_near h lg d hns hd hl2 hl3 hb hv hij hj
      rw [c1, hk i j hij hj b' v' c2 c3, same i j hij hj]
    · obtain ⟨b', v', c1, c2, c3⟩ := gvAt_near h lg d hns hd hl2 hl3 hb hv hi (le_refl _)
      rw [c1, same i _ hi (le_refl _)]
      exact gv_falls_near h.nearest hlg (hz i _ hi (le_refl _)) (hr i _ hi (le_refl _)).2.1 hδ hδ1 c2 c3 (hr i _ hi (le_refl _)).2.2 hsig (hS i _ hi (le_refl _)) (hE i hi)
  rw [hloop]
  have hdesc := (greedy_out (gvOk (ns.map fun k : ℕ => (k : ℝ)) bs s d sig) hpos).desc
  generalize greedyLoop (gvOk (ns.map fun k : ℕ => (k : ℝ)) bs s d sig) ns.length 0 0 [0] = r at *
  rw [gvSuccess_same h hns hd hl2 hl3 hb hv hk hdesc]

end

/-! ## What is missing -/

theorem sum_one {F : Impl} (h : F.Legal) (t : ℕ) (x : ℝ) : F.sum t [x] = x := by
  have hp := h.leaves t [x] (by simp)
  unfold Impl.sum
  cases hT : F.order t [x] with
  | leaf y => rw [hT] at hp; simpa [Tree.leaves, Tree.value, hT] using hp
  | node l r =>
    exfalso
    rw [hT] at hp
    have := hp.length_eq
    have pos : ∀ T : Tree, 0 < T.leaves.length := by
      intro T
      induction T with
      | leaf _ => simp [Tree.leaves]
      | node l r hl _ => simp only [Tree.leaves, List.length_append]; omega
    have := pos l
    have := pos r
    simp only [Tree.leaves, List.length_append, List.length_cons, List.length_nil] at *
    omega

/-- Equal exposures and no scale factors. -/
noncomputable def exOne : RatioData := ⟨1, 1, exUnit, exUnit, exUnit, exUnit⟩

/-- **C162 fails for wide backgrounds.** Two channels with one count each over a background of zero with an uncertainty of `3 * 2 ^ 27`, at a threshold of three, everything computed in double
precision: every channel is a group and success is reported, while the significance of each is at most `2 ^ -28` and exactly the two channels are one group. -/
theorem C162_gv_refuted {F : Impl} {lg} (h : F.Legal) :
    F.groupOptsigGv lg [1, 1] ([1, 1].map fun k : ℕ => (k : ℝ)) [0, 0] [3 * 2 ^ (27 : ℤ), 3 * 2 ^ (27 : ℤ)] exOne 3 = .ok ([1, 1], true) ∧
      significanceGv 1 0 (3 * 2 ^ (27 : ℤ)) (exOne.ratio 0 1) ≤ 2 ^ (-28 : ℤ) ∧
      ∃ success, groupOptsigGv [1, 1] ([1, 1].map fun k : ℕ => (k : ℝ)) [0, 0] [3 * 2 ^ (27 : ℤ), 3 * 2 ^ (27 : ℤ)] exOne 3 = .ok ([1, -1], success) := by
  have hr : Nearest F.rnd := h.nearest
  obtain ⟨-, c1, c2⟩ := C159_gv_refuted (lg := lg) hr
  obtain ⟨-, -, c3⟩ := C154_infinite_refuted (lg := lg) hr
  have c3 := c3 3
  have one : F.rnd 1 = 1 := rnd_num hr 1 0 (by norm_num) (by norm_num) (by norm_num) (by norm_num)
  have zero : F.rnd 0 = 0 := rnd_num hr 0 0 (by norm_num) (by norm_num) (by norm_num) (by norm_num)
  have ratio : ∀ a b, a ≤ b → b ≤ 2 → F.ratio exOne a b = 1 ∧ exOne.ratio a b = 1 := by
    intro a b hab hb
    have := C157_unit_ratio h exOne exUnit_ok exUnit_ok exUnit_ok exUnit_ok (by
      refine le_trans ?_ (zpow_le (p := 0) (by norm_num))
      norm_num [exOne]) hab hb
    have e : exOne.specExp / exOne.backExp = 1 := by norm_num [exOne]
    rw [e, one] at this
    exact this
  refine ⟨?_, by rw [(ratio 0 1 (by norm_num) (by norm_num)).2]; exact c1, by simpa using c2 exOne (ratio 0 1 (by norm_num) (by norm_num)).2⟩
  have sq : 3 * (2 : ℝ) ^ (27 : ℤ) * (3 * 2 ^ (27 : ℤ)) = 9 * 2 ^ (54 : ℤ) := by norm_num
  have root : Real.sqrt (9 * (2 : ℝ) ^ (54 : ℤ)) = 3 * 2 ^ (27 : ℤ) := by rw [← sq]; exact Real.sqrt_mul_self (by positivity)
  have f1 : F.rnd (9 * (2 : ℝ) ^ (54 : ℤ)) = 9 * 2 ^ (54 : ℤ) := rnd_num hr 9 54 (by norm_num) (by norm_num) (by norm_num) (by norm_num)
  have f2 : F.rnd (9 * (2 : ℝ) ^ (54 : ℤ) + 9 * (2 : ℝ) ^ (54 : ℤ)) = 9 * 2 ^ (54 : ℤ) + 9 * 2 ^ (54 : ℤ) := rnd_num hr 18 54 (by norm_num) (by norm_num) (by norm_num) (by norm_num)
  have f3 : F.rnd (3 * (2 : ℝ) ^ (27 : ℤ)) = 3 * 2 ^ (27 : ℤ) := rnd_num hr 3 27 (by norm_num) (by norm_num) (by norm_num) (by norm_num)
  have f4 : F.rnd (1 + 1) = 1 + 1 := rnd_num hr 2 0 (by norm_num) (by norm_num) (by norm_num) (by norm_num)
  have part : ∀ x : ℝ, F.rnd x = x → F.rnd (x + x) = x + x → F.intervalSum (F.prefixSum [x, x]) 0 1 = x ∧ F.intervalSum (F.prefixSum [x, x]) 1 2 = x := by
    intro x h1 h2
    simp [Impl.intervalSum, Impl.prefixSum, Impl.cumsum, Impl.cumsumFrom, h1, h2]
  obtain ⟨n1, n2⟩ := part 1 one f4
  obtain ⟨b1, b2⟩ := part 0 zero (by rw [add_zero, zero])
  obtain ⟨s1, s2⟩ := part _ f1 f2
  have two : ∀ x : ℝ, F.reduceat [x, x] [0, 1] = [x, x] := by
    intro x
    simp [Impl.reduceat, sum_one h]
  have e : edges [0, 1] 2 = [(0, 1), (1, 2)] := by decide
  have f : setFlags 2 [0, 1] = [1, 1] := by decide
  have r1 := (ratio 0 1 (by norm_num) (by norm_num)).1
  have r2 := (ratio 1 2 (by norm_num) (by norm_num)).1
  generalize 9 * (2 : ℝ) ^ (54 : ℤ) = V at *
  clear c1 c2
  generalize 3 * (2 : ℝ) ^ (27 : ℤ) = S at *
  unfold Impl.groupOptsigGv
  rw [if_neg (by simp), if_neg (by norm_num)]
  dsimp only
  have k1 : reachesE 3 (F.gvAt lg [1, 1] [0, 0] [S, S] exOne 0 1) = true := by
    simp only [Impl.gvAt, Impl.gvSums, List.map_cons, List.map_nil, sq, f1, n1, b1, s1, root, f3, r1, c3]
  have k2 : reachesE 3 (F.gvAt lg [1, 1] [0, 0] [S, S] exOne 1 2) = true := by
    simp only [Impl.gvAt, Impl.gvSums, List.map_cons, List.map_nil, sq, f1, n2, b2, s2, root, f3, r2, c3]
  have m : ([1, 1].map fun k : ℕ => (k : ℝ)) = [1, 1] := by simp
  rw [m, loop_two k1 k2]
  simp [Impl.gvSuccess, two, sq, f1, root, f3, c3, e, f, r1, r2]

example := C162_gv_refuted leftImpl_legal (lg := exLog)

/-- **C162 (refused).** Unequal numbers of channels and thresholds that are not positive are refused with an `AssertionError`, and optimal grouping refuses nothing else. -/
theorem C162_refuses (F : Impl) (lg : ℝ → ℝ) (bint : List ℕ) (on off n b s : List ℝ) (d : RatioData) (sig : ℝ) :
    ((∃ r, F.groupOptsigLima lg bint on off d sig = .ok r) ↔ bint.length = on.length ∧ on.length = off.length ∧ 0 < sig) ∧
      ((∃ r, F.groupOptsigGv lg bint n b s d sig = .ok r) ↔ (bint.length = n.length ∧ n.length = b.length ∧ b.length = s.length) ∧ 0 < sig) ∧
      ((∃ r, F.groupSigLima lg on off d sig = .ok r) ↔ on.length = off.length ∧ on ≠ [] ∧ 0 < sig) ∧
      ((∃ r, F.groupSigGv lg n b s d sig = .ok r) ↔ (n.length = b.length ∧ b.length = s.length) ∧ n ≠ [] ∧ 0 < sig) := by
  refine ⟨?_, ?_, ?_, ?_⟩
  · unfold Impl.groupOptsigLima
    by_cases h1 : bint.length = on.length ∧ on.length = off.length
    · by_cases h2 : sig ≤ 0
      · simp [h1, h2, not_lt.2 h2]
      · rw [if_neg (not_not.2 h1), if_neg h2]
        simp [h1.1, h1.2, not_le.1 h2]
    · rw [if_pos h1]
      simp only [reduceCtorEq, exists_false, false_iff]
      exact fun h => h1 ⟨h.1, h.2.1⟩
  · unfold Impl.groupOptsigGv
    by_cases h1 : bint.length = n.length ∧ n.length = b.length ∧ b.length = s.length
    · by_cases h2 : sig ≤ 0
      · simp [h1, h2, not_lt.2 h2]
      · rw [if_neg (not_not.2 h1), if_neg h2]
        simp [h1.1, h1.2.1, h1.2.2, not_le.1 h2]
    · rw [if_pos h1]
      simp only [reduceCtorEq, exists_false, false_iff]
      exact fun h => h1 h.1
  · unfold Impl.groupSigLima
    by_cases h1 : on.length = off.length
    · by_cases h2 : sig ≤ 0
      · simp [h1, h2, not_lt.2 h2]
      · by_cases h3 : on = []
        · rw [if_neg (not_not.2 h1), if_neg h2, if_pos h3]
          simp [h3]
        · rw [if_neg (not_not.2 h1), if_neg h2, if_neg h3]
          simp [h1, h3, not_le.1 h2]
    · rw [if_pos h1]
      simp [h1]
  · unfold Impl.groupSigGv
    by_cases h1 : n.length = b.length ∧ b.length = s.length
    · by_cases h2 : sig ≤ 0
      · simp [h1, h2, not_lt.2 h2]
      · by_cases h3 : n = []
        · rw [if_neg (not_not.2 h1), if_neg h2, if_pos h3]
          simp [h3]
        · rw [if_neg (not_not.2 h1), if_neg h2, if_neg h3]
          simp [h1.1, h1.2, h3, not_le.1 h2]
    · rw [if_pos h1]
      simp only [reduceCtorEq, exists_false, false_iff]
      exact fun h => h1 h.1

example (F : Impl) (lg : ℝ → ℝ) : ∃ r, F.groupSigLima lg [4] [1] exOne 2 = .ok r := (C162_refuses F lg [1] [4] [1] [4] [1] [1] exOne 2).2.2.1.2 ⟨rfl, by simp, by norm_num⟩

/-! ## The hypotheses can be met -/

theorem exThird_near : RatiosNear leftImpl exThird 2 (1 / (2 * 10 ^ 13)) := fun _ _ hab hb =>
  (unit_near leftImpl_legal exThird exUnit_ok exUnit_ok exUnit_ok exUnit_ok exThird_size hab.le hb).2

theorem exThird_ratio {a b : ℕ} (hab : a < b) (hb : b ≤ 2) : exThird.ratio a b = exThird.specExp / exThird.backExp :=
  (unit_near leftImpl_legal exThird exUnit_ok exUnit_ok exUnit_ok exUnit_ok exThird_size hab.le hb).1

example := C162_optsig_lima_partial leftImpl_legal exLog_ok [2, 1] [20, 20] [5, 5] exThird 2 (by decide) (by norm_num) exThird_near (by norm_num)
  (fun _ _ hab hb => by rw [exThird_ratio hab hb]; exact exThird_clear hab hb)
example := C162_sig_lima_partial leftImpl_legal exLog_ok [20, 20] [5, 5] exThird 2 (by norm_num) exThird_near (by norm_num)
  (fun _ _ hab hb => by rw [exThird_ratio hab hb]; exact exThird_clear hab hb)
  (fun _ ha => by
    rw [exThird_ratio ha (le_refl _)]
    exact le_trans (by norm_num) ((exThird_large ha (le_refl _)).trans (le_abs_self _)))

/-- Exposures with the ratio 1/2, and no scale factors. -/
noncomputable def exHalf : RatioData := ⟨1, 2, exUnit, exUnit, exUnit, exUnit⟩

theorem exHalf_near : RatiosNear leftImpl exHalf 2 (1 / (2 * 10 ^ 13)) := fun _ _ hab hb =>
  (unit_near leftImpl_legal exHalf exUnit_ok exUnit_ok exUnit_ok exUnit_ok ⟨by norm_num [exHalf], by norm_num [exHalf]⟩ hab.le hb).2

theorem exHalf_ratio {a b : ℕ} (hab : a < b) (hb : b ≤ 2) : exHalf.ratio a b = 1 / 2 := by
  rw [(unit_near leftImpl_legal exHalf exUnit_ok exUnit_ok exUnit_ok exUnit_ok ⟨by norm_num [exHalf], by norm_num [exHalf]⟩ hab.le hb).1]
  norm_num [exHalf]

theorem exGv_big {i j : ℕ} (hij : i < j) (hj : j ≤ 2) :
    2 ≤ significanceGv (total [30, 30] i j : ℕ) (total [20, 20] i j) (Real.sqrt (total ([4, 4].map fun x => x * x) i j)) (exHalf.ratio i j) := by
  have := (exGvTotals hij hj).1
  rwa [exRatio_half hij hj, ← exHalf_ratio hij hj] at this

theorem exGv_data : GvData [20, 20] [4, 4] 2 where
  backs := by
    intro x hx
    obtain rfl : x = 20 := by simpa using hx
    have := rep_small (k := 20) (by norm_num)
    push_cast at this
    exact ⟨this, by norm_num⟩
  errors := by
    intro x hx
    obtain rfl : x = 4 := by simpa using hx
    exact Or.inr ((zpow_le (q := 0) (by norm_num)).trans (by norm_num))
  back := by refine le_trans ?_ (zpow_le (p := 6) (by norm_num)); norm_num
  variance := by refine le_trans ?_ (zpow_le (p := 5) (by norm_num)); norm_num
  few := by norm_num

theorem exShares (x : ℝ) (hx : 0 ≤ x) : Shares [x, x] 2 (1 / (2 * 10 ^ 13)) := by
  intro i j hij hj
  have t01 : total [x, x] 0 1 = x := by simp [total]
  have t12 : total [x, x] 1 2 = x := by simp [total]
  have t02 : total [x, x] 0 2 = x + x := by simp [total, Finset.sum_range_succ]
  have : (i = 0 ∧ j = 1) ∨ (i = 0 ∧ j = 2) ∨ (i = 1 ∧ j = 2) := by omega
  rcases this with ⟨rfl, rfl⟩ | ⟨rfl, rfl⟩ | ⟨rfl, rfl⟩
  · rw [t01]; norm_num; nlinarith
  · rw [t02]; norm_num; nlinarith
  · rw [t02, t12]; norm_num; nlinarith

theorem exGv_clear {i j : ℕ} (hij : i < j) (hj : j ≤ 2) : GvClear (total [30, 30] i j : ℕ) (total [20, 20] i j) (total ([4, 4].map fun x => x * x) i j) (exHalf.ratio i j) := by
  rw [exHalf_ratio hij hj]
  have t01 : ∀ x y : ℝ, total [x, y] 0 1 = x := by intro x y; simp [total]
  have t12 : ∀ x y : ℝ, total [x, y] 1 2 = y := by intro x y; simp [total]
  have t02 : ∀ x y : ℝ, total [x, y] 0 2 = x + y := by intro x y; simp [total, Finset.sum_range_succ]
  have : (i = 0 ∧ j = 1) ∨ (i = 0 ∧ j = 2) ∨ (i = 1 ∧ j = 2) := by omega
  rcases this with ⟨rfl, rfl⟩ | ⟨rfl, rfl⟩ | ⟨rfl, rfl⟩
  · rw [show total [30, 30] 0 1 = 30 from rfl, List.map_cons, List.map_cons, List.map_nil, t01, t01]
    exact ⟨by norm_num, by norm_num, by norm_num, by norm_num, by norm_num⟩
  · rw [show total [30, 30] 0 2 = 60 from rfl, List.map_cons, List.map_cons, List.map_nil, t02, t02]
    exact ⟨by norm_num, by norm_num, by norm_num, by norm_num, by norm_num⟩
  · rw [show total [30, 30] 1 2 = 30 from rfl, List.map_cons, List.map_cons, List.map_nil, t12, t12]
    exact ⟨by norm_num, by norm_num, by norm_num, by norm_num, by norm_num⟩

example := C162_optsig_gv_partial leftImpl_legal exLog_ok [1, 1] [30, 30] [20, 20] [4, 4] exHalf (3 / 2) (1 / (2 * 10 ^ 13)) (by decide) (by norm_num) exGv_data (by norm_num) (by norm_num) exHalf_near
  (exShares 20 (by norm_num)) (exShares (4 * 4) (by norm_num)) (by norm_num) (fun _ _ hij hj => exGv_clear hij hj)
  (fun i j hij hj => by
    have := exGv_big hij hj
    rw [abs_of_pos (by linarith)]
    refine lt_of_lt_of_le ?_ (sub_le_sub_right this _)
    norm_num)
example := C162_sig_gv_partial leftImpl_legal exLog_ok [30, 30] [20, 20] [4, 4] exHalf (3 / 2) (1 / (2 * 10 ^ 13)) (by norm_num) exGv_data (by norm_num) (by norm_num) exHalf_near
  (exShares 20 (by norm_num)) (exShares (4 * 4) (by norm_num)) (by norm_num) (fun _ _ hij hj => exGv_clear hij hj)
  (fun i j hij hj => by
    have := exGv_big hij hj
    rw [abs_of_pos (by linarith)]
    refine lt_of_lt_of_le ?_ (sub_le_sub_right this _)
    norm_num)
  (fun i hi => by
    have := exGv_big hi (le_refl _)
    rw [abs_of_pos (lt_of_lt_of_le two_pos this)]
    exact le_trans (by norm_num) this)

/-! ## No scale factors -/

/-- No area or background scale factors: all are one in every channel. -/
structure NoScale (d : RatioData) (n : ℕ) : Prop where
  specArea : UnitScale d.specArea n
  specBack : UnitScale d.specBack n
  backArea : UnitScale d.backArea n
  backBack : UnitScale d.backBack n
  exposures : 2 ^ (-30 : ℤ) ≤ d.specExp / d.backExp ∧ d.specExp / d.backExp ≤ 2 ^ (30 : ℤ)

theorem NoScale.ratio {F : Impl} (h : F.Legal) {d : RatioData} {n : ℕ} (hd : NoScale d n) {a b : ℕ} (hab : a < b) (hb : b ≤ n) : d.ratio a b = d.specExp / d.backExp :=
  (unit_near h d hd.specArea hd.specBack hd.backArea hd.backBack hd.exposures hab.le hb).1

theorem NoScale.near {F : Impl} (h : F.Legal) {d : RatioData} {n : ℕ} (hd : NoScale d n) : RatiosNear F d n (1 / (2 * 10 ^ 13)) := fun _ _ hab hb =>
  (unit_near h d hd.specArea hd.specBack hd.backArea hd.backBack hd.exposures hab.le hb).2

/-- **C162 (optimal grouping by Li-Ma significance, no scale factors), partial.** With all scale factors one, nothing has to be assumed about computed numbers: at most a million counts, a wanted
significance above one, and no interval of channels with a significance within two millionths of it, for the ratio of the exposures; then the optimal grouping, everything computed in double
precision, is the exact one, with the same report of success.  What is missing: intervals within two millionths of the threshold. -/
theorem C162_optsig_lima_unit_partial {F : Impl} {lg} (h : F.Legal) (hl : Accurate lg) (bint on off : List ℕ) (d : RatioData) (sig : ℝ) (hb : ∀ x ∈ bint, 1 ≤ x) (hsum : on.sum + off.sum ≤ 10 ^ 6)
    (hd : NoScale d on.length) (hsig : 1001 / 1000 ≤ sig)
    (hS : ∀ a b, a < b → b ≤ on.length → 2 / 10 ^ 6 < |significanceLima (total on a b : ℕ) (total off a b : ℕ) (d.specExp / d.backExp) - sig|) :
    F.groupOptsigLima lg bint (on.map fun k : ℕ => (k : ℝ)) (off.map fun k : ℕ => (k : ℝ)) d sig =
      groupOptsigLima bint (on.map fun k : ℕ => (k : ℝ)) (off.map fun k : ℕ => (k : ℝ)) d sig :=
  C162_optsig_lima_partial h hl bint on off d sig hb hsum (hd.near h) hsig fun a b hab hb => by rw [hd.ratio h hab hb]; exact hS a b hab hb

/-- **C162 (grouping by Li-Ma significance, no scale factors), partial.** The same for the grouping from low to high channels, if moreover no interval that ends at the last channel has a
significance below two thousandths in size. -/
theorem C162_sig_lima_unit_partial {F : Impl} {lg} (h : F.Legal) (hl : Accurate lg) (on off : List ℕ) (d : RatioData) (sig : ℝ) (hsum : on.sum + off.sum ≤ 10 ^ 6)
    (hd : NoScale d on.length) (hsig : 1001 / 1000 ≤ sig)
    (hS : ∀ a b, a < b → b ≤ on.length → 2 / 10 ^ 6 < |significanceLima (total on a b : ℕ) (total off a b : ℕ) (d.specExp / d.backExp) - sig|)
    (hE : ∀ a < on.length, 2 / 10 ^ 3 ≤ |significanceLima (total on a on.length : ℕ) (total off a on.length : ℕ) (d.specExp / d.backExp)|) :
    F.groupSigLima lg (on.map fun k : ℕ => (k : ℝ)) (off.map fun k : ℕ => (k : ℝ)) d sig =
      groupSigLima (on.map fun k : ℕ => (k : ℝ)) (off.map fun k : ℕ => (k : ℝ)) d sig :=
  C162_sig_lima_partial h hl on off d sig hsum (hd.near h) hsig (fun a b hab hb => by rw [hd.ratio h hab hb]; exact hS a b hab hb)
    fun a hab => by rw [hd.ratio h hab (le_refl _)]; exact hE a hab

/-- Backgrounds, or variances, of the channels that do not differ too much in few enough channels have shares that are large enough. -/
theorem shares_even {xs : List ℝ} {lo hi δ : ℝ} (h0 : 0 ≤ lo) (hlo : ∀ x ∈ xs, lo ≤ x) (hhi : ∀ x ∈ xs, x ≤ hi) (hδ : 5 * 2 ^ (-52 : ℤ) * (xs.length * hi) ≤ δ * lo) (hδ0 : 0 ≤ δ) (hi0 : 0 ≤ hi) :
    Shares xs xs.length δ := by
  intro i j hij hj
  have up : total xs 0 j ≤ xs.length * hi := by
    have : total xs 0 j ≤ j * hi := by
      unfold total
      refine (Finset.sum_le_card_nsmul _ _ hi fun k hk => ?_).trans ?_
      · have := Finset.mem_Ico.1 hk
        rw [List.getD_eq_getElem?_getD, List.getElem?_eq_getElem (by omega), Option.getD_some]
        exact hhi _ (List.getElem_mem _)
      · simp
    exact this.trans (mul_le_mul_of_nonneg_right (by exact_mod_cast hj) hi0)
  have down : ((j - i : ℕ) : ℝ) * lo ≤ total xs i j := by
    unfold total
    refine le_trans ?_ (Finset.card_nsmul_le_sum _ _ lo fun k hk => ?_)
    · simp
    · have := Finset.mem_Ico.1 hk
      rw [List.getD_eq_getElem?_getD, List.getElem?_eq_getElem (by omega), Option.getD_some]
      exact hlo _ (List.getElem_mem _)
  have k1 : (1 : ℝ) ≤ ((j - i : ℕ) : ℝ) := by exact_mod_cast (by omega : 1 ≤ j - i)
  generalize ((j - i : ℕ) : ℝ) = k at *
  have w0 : (0 : ℝ) < 2 ^ (-52 : ℤ) := two_zpow_pos _
  generalize (2 : ℝ) ^ (-52 : ℤ) = w at *
  calc (k + 4) * w * total xs 0 j ≤ (5 * k) * w * (xs.length * hi) := by
        refine mul_le_mul (mul_le_mul_of_nonneg_right (by linarith) w0.le) up ?_ (by positivity)
        unfold total
        refine Finset.sum_nonneg fun m hm => ?_
        have := Finset.mem_Ico.1 hm
        rw [List.getD_eq_getElem?_getD, List.getElem?_eq_getElem (by omega), Option.getD_some]
        exact h0.trans (hlo _ (List.getElem_mem _))
    _ = k * (5 * w * (xs.length * hi)) := by ring
    _ ≤ k * (δ * lo) := mul_le_mul_of_nonneg_left hδ (by linarith)
    _ = δ * (k * lo) := by ring
    _ ≤ δ * total xs i j := mul_le_mul_of_nonneg_left down hδ0

example : Shares [20, 30, 25] 3 (1 / 10 ^ 13) := shares_even (lo := 20) (hi := 30) (by norm_num)
  (by intro x hx; rcases (by simpa using hx : x = 20 ∨ x = 30 ∨ x = 25) with rfl | rfl | rfl <;> norm_num)
  (by intro x hx; rcases (by simpa using hx : x = 20 ∨ x = 30 ∨ x = 25) with rfl | rfl | rfl <;> norm_num) (by norm_num) (by norm_num) (by norm_num)

theorem exThird_plain : NoScale exThird 2 := ⟨exUnit_ok, exUnit_ok, exUnit_ok, exUnit_ok, exThird_size⟩

example := C162_optsig_lima_unit_partial leftImpl_legal exLog_ok [2, 1] [20, 20] [5, 5] exThird 2 (by decide) (by norm_num) exThird_plain (by norm_num) (fun _ _ hab hb => exThird_clear hab hb)
example := C162_sig_lima_unit_partial leftImpl_legal exLog_ok [20, 20] [5, 5] exThird 2 (by norm_num) exThird_plain (by norm_num) (fun _ _ hab hb => exThird_clear hab hb)
  (fun _ ha => le_trans (by norm_num) ((exThird_large ha (le_refl _)).trans (le_abs_self _)))

end Elisa.Grouping.Fl
