import Verif.Util.Progress

/-!
# C47: the progress bar counts every evaluation under every schedule
-/

namespace Elisa.Util

open Elisa

/-! ## Helper lemmas -/

/-- Evaluations a list of operations still reports. -/
def pend : List Op → Nat
  | [] => 0
  | .update k :: r => k + pend r
  | _ :: r => pend r

/-- Number of counter increments in a list of operations. -/
def incrs : List Op → Nat
  | [] => 0
  | .incr :: r => 1 + incrs r
  | _ :: r => incrs r

theorem pend_append (a b : List Op) : pend (a ++ b) = pend a + pend b := by
  induction a with
  | nil => simp [pend]
  | cons x a ih => cases x <;> simp [pend, ih, Nat.add_assoc]

/-- Shape of the remaining program of a thread: updates, then the increment, then the check. -/
def Shape (ops : List Op) : Prop :=
  ops = [] ∨ ops = [.check] ∨ ∃ us : List Nat, ops = us.map Op.update ++ [.incr, .check]

theorem shape_tail {op : Op} {ops : List Op} (h : Shape (op :: ops)) : Shape ops := by
  rcases h with h | h | ⟨us, h⟩
  · cases h
  · simp at h; exact .inl h.2
  · cases us with
    | nil => simp at h; exact .inr (.inl h.2)
    | cons u us => simp at h; exact .inr (.inr ⟨us, h.2⟩)

theorem shape_incr {ops : List Op} (h : Shape (.incr :: ops)) : ops = [.check] := by
  rcases h with h | h | ⟨us, h⟩
  · cases h
  · simp at h
  · cases us with
    | nil => simp at h; exact h
    | cons u us => simp at h

theorem shape_check {ops : List Op} (h : Shape (.check :: ops)) : ops = [] := by
  rcases h with h | h | ⟨us, h⟩
  · cases h
  · simp at h; exact h
  · cases us with
    | nil => simp at h
    | cons u us => simp at h

theorem shape_no_load {ops : List Op} (h : Shape (.load :: ops)) : False := by
  rcases h with h | h | ⟨us, h⟩
  · cases h
  · simp at h
  · cases us <;> simp at h

theorem shape_no_store {k : Nat} {ops : List Op} (h : Shape (.store k :: ops)) : False := by
  rcases h with h | h | ⟨us, h⟩
  · cases h
  · simp at h
  · cases us <;> simp at h

theorem incrs_updates (us : List Nat) (r : List Op) : incrs (us.map Op.update ++ r) = incrs r := by
  induction us with
  | nil => rfl
  | cons u us ih => simpa [incrs] using ih

/-- No increment left: no update left. -/
theorem shape_pend {ops : List Op} (h : Shape ops) (h0 : incrs ops = 0) : pend ops = 0 := by
  rcases h with h | h | ⟨us, h⟩
  · subst h; rfl
  · subst h; rfl
  · subst h; rw [incrs_updates] at h0; simp [incrs] at h0

/-- An increment left: a check left. -/
theorem shape_has_check {ops : List Op} (h : Shape ops) (h0 : incrs ops ≠ 0) : Op.check ∈ ops := by
  rcases h with h | h | ⟨us, h⟩ <;> subst h <;> simp_all [incrs]

/-- What is true in every reachable state (with indivisible updates). -/
structure Inv (neval ncores : Nat) (s : PState) : Prop where
  shape : ∀ t ∈ s.threads, Shape t.2
  count : s.counter + (s.threads.map fun t => incrs t.2).sum = ncores
  total : s.n + (s.threads.map fun t => pend t.2).sum = neval
  closedAll : s.closed = true → s.counter = ncores
  willClose : s.closed = true ∨ ∃ t ∈ s.threads, Op.check ∈ t.2

theorem sum_zero {A : Type} (f : A → Nat) (l : List A) (h : (l.map f).sum = 0) : ∀ x ∈ l, f x = 0 := by
  intro x hx
  have := List.le_sum_of_mem (List.mem_map_of_mem (f := f) hx)
  omega

theorem Inv.step {neval ncores : Nat} {s s' : PState} (h : Inv neval ncores s) (hs : PStep ncores s s') :
    Inv neval ncores s' := by
  obtain ⟨before, after, reg, op, ops, n, closed, counter⟩ := hs
  obtain ⟨h1, h2, h3, h4, h5⟩ := h
  simp only [List.map_append, List.map_cons, List.sum_append, List.sum_cons] at h2 h3
  have hsh : Shape (op :: ops) := h1 (reg, op :: ops) (by simp)
  have hshape : ∀ (r : Option Nat), ∀ t ∈ before ++ (r, ops) :: after, Shape t.2 := by
    intro r t ht
    rcases List.mem_append.1 ht with ht | ht
    · exact h1 t (by simp [ht])
    · rcases List.mem_cons.1 ht with rfl | ht
      · exact shape_tail hsh
      · exact h1 t (by simp [ht])
  -- once the bar is closed nothing is left to report
  have hdone : closed = true → pend (op :: ops) = 0 := by
    intro hc
    have := h4 hc
    simp only at this
    exact shape_pend hsh (by omega)
  cases op with
  | load => exact (shape_no_load hsh).elim
  | store k => exact (shape_no_store hsh).elim
  | update k =>
    refine ⟨hshape _, ?_, ?_, h4, ?_⟩
    · simp only [runOp, List.map_append, List.map_cons, List.sum_append, List.sum_cons]
      simpa [incrs] using h2
    · simp only [runOp, List.map_append, List.map_cons, List.sum_append, List.sum_cons]
      simp only [pend] at h3
      cases closed with
      | false => simp; omega
      | true =>
        have := hdone rfl
        simp only [pend] at this
        simp; omega
    · rcases h5 with h5 | ⟨t, ht, hc⟩
      · exact .inl h5
      · right
        rcases List.mem_append.1 ht with ht | ht
        · exact ⟨t, by simp [runOp, ht], hc⟩
        · rcases List.mem_cons.1 ht with rfl | ht
          · exact ⟨(reg, ops), by simp [runOp], by simpa using hc⟩
          · exact ⟨t, by simp [runOp, ht], hc⟩
  | incr =>
    have hops := shape_incr hsh
    refine ⟨hshape _, ?_, ?_, ?_, ?_⟩
    · simp only [runOp, List.map_append, List.map_cons, List.sum_append, List.sum_cons]
      simp only [incrs] at h2
      omega
    · simp only [runOp, List.map_append, List.map_cons, List.sum_append, List.sum_cons]
      simpa [pend] using h3
    · intro hc
      have hc' : closed = true := hc
      have := h4 hc'
      simp only [incrs] at h2
      simp only at this
      omega
    · right
      exact ⟨(reg, ops), by simp [runOp], by simp [hops]⟩
  | check =>
    have hops := shape_check hsh
    subst hops
    refine ⟨hshape _, ?_, ?_, ?_, ?_⟩
    · simp only [runOp, List.map_append, List.map_cons, List.sum_append, List.sum_cons]
      simpa [incrs] using h2
    · simp only [runOp, List.map_append, List.map_cons, List.sum_append, List.sum_cons]
      simpa [pend] using h3
    · intro hc
      simp only [runOp, Bool.or_eq_true, decide_eq_true_eq] at hc
      rcases hc with hc | hc
      · exact h4 hc
      · exact hc
    · by_cases hcn : counter = ncores
      · left; simp [runOp, hcn]
      · right
        simp only [incrs] at h2
        have hpos : (before.map fun t => incrs t.2).sum + (after.map fun t => incrs t.2).sum ≠ 0 := by omega
        have : ∃ t ∈ before ++ after, incrs t.2 ≠ 0 := by
          by_contra hno
          push Not at hno
          apply hpos
          have hb : (before.map fun t => incrs t.2).sum = 0 :=
            List.sum_eq_zero fun x hx => by
              obtain ⟨t, ht, rfl⟩ := List.mem_map.1 hx
              exact hno t (by simp [ht])
          have ha : (after.map fun t => incrs t.2).sum = 0 :=
            List.sum_eq_zero fun x hx => by
              obtain ⟨t, ht, rfl⟩ := List.mem_map.1 hx
              exact hno t (by simp [ht])
          omega
        obtain ⟨t, ht, hi⟩ := this
        have ht' : t ∈ before ++ (reg, [Op.check]) :: after := by
          rcases List.mem_append.1 ht with ht | ht <;> simp [ht]
        refine ⟨t, ?_, shape_has_check (h1 t ht') hi⟩
        rcases List.mem_append.1 ht with ht | ht <;> simp [runOp, ht]

/-- Updates reported by the first `j` iterations, none of which is the last. -/
theorem early_ops (m pr j : Nat) (hj : j < m) : ∃ us : List Nat,
    ((List.range j).flatMap fun i => iterOps true m pr (i + 1)) = us.map Op.update ∧ us.sum = j / pr * pr := by
  induction j with
  | zero => exact ⟨[], rfl, by simp⟩
  | succ j ih =>
    obtain ⟨us, h1, h2⟩ := ih (by omega)
    have hit : ∃ vs : List Nat, iterOps true m pr (j + 1) = vs.map Op.update ∧
        vs.sum = if (j + 1) % pr = 0 then pr else 0 := by
      unfold iterOps compileUpdate
      rw [if_neg (show ¬ (j + 1 = m) by omega)]
      by_cases ha : j + 1 = 1 <;> by_cases hb : (j + 1) % pr = 0
      · exact ⟨[0, pr], by simp only [ha, hb, if_true]; rw [ha] at hb; simp [hb], by simp [hb]⟩
      · exact ⟨[0], by simp only [ha, if_true]; rw [ha] at hb; simp [hb], by simp [hb]⟩
      · exact ⟨[pr], by rw [if_neg ha, if_pos hb]; simp, by simp [hb]⟩
      · exact ⟨[], by rw [if_neg ha, if_neg hb]; simp, by simp [hb]⟩
    obtain ⟨vs, h3, h4⟩ := hit
    refine ⟨us ++ vs, ?_, ?_⟩
    · rw [List.range_succ, List.flatMap_append, h1]
      simp [h3]
    · rw [List.sum_append, h2, h4]
      rw [Nat.succ_div]
      by_cases hb : (j + 1) % pr = 0
      · rw [if_pos hb, if_pos (Nat.dvd_of_mod_eq_zero hb), Nat.succ_mul]
      · rw [if_neg hb, if_neg (fun hd => hb (Nat.mod_eq_zero_of_dvd hd))]
        simp

/-- The program of a device reports exactly `m` evaluations, then increments, then checks. -/
theorem deviceOps_shape (m pr : Nat) (hm : 1 ≤ m) (hpr : 1 ≤ pr) : ∃ us : List Nat,
    deviceOps true m pr = us.map Op.update ++ [.incr, .check] ∧ us.sum = m := by
  obtain ⟨j, rfl⟩ : ∃ j, m = j + 1 := ⟨m - 1, by omega⟩
  obtain ⟨us, h1, h2⟩ := early_ops (j + 1) pr j (by omega)
  have hit : ∃ vs : List Nat, iterOps true (j + 1) pr (j + 1) = vs.map Op.update ++ [.incr, .check] ∧
      vs.sum = (if (j + 1) % pr = 0 then pr else 0) + (j + 1) % pr := by
    unfold iterOps compileUpdate
    by_cases ha : j + 1 = 1 <;> by_cases hb : (j + 1) % pr = 0
    · exact ⟨[0, pr, (j + 1) % pr], by rw [if_pos ha, if_pos hb]; simp, by simp [hb]⟩
    · exact ⟨[0, (j + 1) % pr], by rw [if_pos ha, if_neg hb]; simp, by simp [hb]⟩
    · exact ⟨[pr, (j + 1) % pr], by rw [if_neg ha, if_pos hb]; simp, by simp [hb]⟩
    · exact ⟨[(j + 1) % pr], by rw [if_neg ha, if_neg hb]; simp, by simp [hb]⟩
  obtain ⟨vs, h3, h4⟩ := hit
  refine ⟨us ++ vs, ?_, ?_⟩
  · rw [deviceOps, List.range_succ, List.flatMap_append, h1]
    simp [h3]
  · rw [List.sum_append, h2, h4]
    have h5 := Nat.div_add_mod (j + 1) pr
    rw [Nat.succ_div] at h5
    by_cases hb : (j + 1) % pr = 0
    · rw [if_pos (Nat.dvd_of_mod_eq_zero hb)] at h5
      rw [if_pos hb]
      rw [Nat.mul_add, Nat.mul_one, Nat.mul_comm] at h5
      omega
    · rw [if_neg (fun hd => hb (Nat.mod_eq_zero_of_dvd hd))] at h5
      rw [if_neg hb]
      rw [Nat.add_zero, Nat.mul_comm] at h5
      omega

theorem pend_updates (us : List Nat) : pend (us.map Op.update ++ [.incr, .check]) = us.sum := by
  induction us with
  | nil => rfl
  | cons u us ih => simp [pend, ih]

theorem printRate_pos (a b c : Nat) : 1 ≤ printRate a b c := by
  unfold printRate; split
  · exact le_max_left _ _
  · exact le_rfl

theorem start_inv (neval ncores updateRate : Nat) (hc : 1 ≤ ncores) (hn : 1 ≤ neval) (s : PState)
    (h : startProgress true neval ncores updateRate = .ok s) : Inv neval ncores s := by
  unfold startProgress at h
  by_cases hmod : neval % ncores = 0
  · rw [if_neg (by omega)] at h
    cases h
    have hdvd := Nat.dvd_of_mod_eq_zero hmod
    have hm : 1 ≤ neval / ncores := Nat.div_pos (Nat.le_of_dvd hn hdvd) hc
    obtain ⟨us, h1, h2⟩ := deviceOps_shape (neval / ncores) (printRate neval (neval / ncores) updateRate) hm
      (printRate_pos _ _ _)
    refine ⟨?_, ?_, ?_, by simp, ?_⟩
    · intro t ht
      have := List.eq_of_mem_replicate ht
      subst this
      exact .inr (.inr ⟨us, h1⟩)
    · simp only [List.map_replicate, h1, incrs_updates]
      simp [incrs]
    · simp only [List.map_replicate, h1, pend_updates, h2]
      simp [Nat.mul_div_cancel' hdvd]
    · right
      refine ⟨(none, us.map Op.update ++ [.incr, .check]), ?_, by simp⟩
      simp only [h1]
      exact List.mem_replicate.2 ⟨by omega, rfl⟩
  · rw [if_pos hmod] at h; cases h

theorem reach_inv {neval ncores updateRate : Nat} (hc : 1 ≤ ncores) (hn : 1 ≤ neval) {s t : PState}
    (h : startProgress true neval ncores updateRate = .ok s) (hr : Relation.ReflTransGen (PStep ncores) s t) :
    Inv neval ncores t := by
  induction hr with
  | refl => exact start_inv neval ncores updateRate hc hn s h
  | tail _ hs ih => exact ih.step hs

/-! ## The property -/

/-- **C47** (partial: for progress updates that are indivisible operations).  For every positive number of
evaluations and devices, every update rate, every schedule and every moment: the bar never exceeds the total;
once it is closed it shows exactly the total and no thread has an update left; a state in which some
thread has work left can always continue; and when all threads have finished, the bar is closed and shows
the total.  Missing from the full property: `bar.update` is not one indivisible operation, see
`C47_progress_refuted`. -/
theorem C47_progress_partial (neval ncores updateRate : Nat) (hc : 1 ≤ ncores) (hn : 1 ≤ neval) (s t : PState)
    (h : startProgress true neval ncores updateRate = .ok s)
    (hr : Relation.ReflTransGen (PStep ncores) s t) :
    t.n ≤ neval ∧
    (t.closed = true → t.n = neval ∧ ∀ th ∈ t.threads, ∀ k, Op.update k ∈ th.2 → k = 0) ∧
    ((∃ th ∈ t.threads, th.2 ≠ []) → ∃ t', PStep ncores t t') ∧
    ((∀ th ∈ t.threads, th.2 = []) → t.n = neval ∧ t.closed = true) := by
  have inv := reach_inv hc hn h hr
  have htot := inv.total
  have hzero : t.closed = true → (t.threads.map fun t => pend t.2).sum = 0 := by
    intro hcl
    have h1 := inv.closedAll hcl
    have h2 := inv.count
    have h3 : (t.threads.map fun t => incrs t.2).sum = 0 := by omega
    apply List.sum_eq_zero
    intro x hx
    obtain ⟨th, hth, rfl⟩ := List.mem_map.1 hx
    exact shape_pend (inv.shape th hth) (sum_zero (fun t : Option Nat × List Op => incrs t.2) _ h3 th hth)
  refine ⟨by omega, ?_, ?_, ?_⟩
  · intro hcl
    refine ⟨by have := hzero hcl; omega, ?_⟩
    intro th hth k hk
    have h0 := sum_zero (fun t : Option Nat × List Op => pend t.2) _ (hzero hcl) th hth
    have : ∀ ops : List Op, Op.update k ∈ ops → k ≤ pend ops := by
      intro ops hops
      induction ops with
      | nil => cases hops
      | cons o ops ih =>
        rcases List.mem_cons.1 hops with rfl | h
        · simp [pend]
        · have := ih h
          cases o <;> simp only [pend] <;> omega
    have := this th.2 hk
    omega
  · rintro ⟨⟨reg, ops⟩, hth, hne⟩
    obtain ⟨before, after, heq⟩ := List.append_of_mem hth
    cases ops with
    | nil => exact absurd rfl hne
    | cons op ops =>
      obtain ⟨n, closed, counter, threads⟩ := t
      simp only at heq
      subst heq
      exact ⟨_, PStep.mk before after reg op ops n closed counter⟩
  · intro hall
    have hcl : t.closed = true := by
      rcases inv.willClose with h | ⟨th, hth, hck⟩
      · exact h
      · rw [hall th hth] at hck; cases hck
    exact ⟨by have := hzero hcl; omega, hcl⟩

/-- The factory refuses exactly the numbers of evaluations that cannot be shared evenly. -/
theorem C47_refuses (atomic : Bool) (neval ncores updateRate : Nat) :
    (∃ s, startProgress atomic neval ncores updateRate = .ok s) ↔ neval % ncores = 0 := by
  unfold startProgress
  by_cases h : neval % ncores = 0
  · simp [h]
  · simp [h]

/-- Every run is finite: each step uses up one operation. -/
theorem C47_terminates (ncores : Nat) (s t : PState) (h : PStep ncores s t) :
    (t.threads.map fun th => th.2.length).sum + 1 = (s.threads.map fun th => th.2.length).sum := by
  obtain ⟨before, after, reg, op, ops, n, closed, counter⟩ := h
  simp
  omega

/-- Three evaluations per device on two devices with a bar refreshed once per device: the hypotheses are met
by a real start state. -/
example : startProgress true 6 2 1 = .ok ⟨0, false, 0, [
    (none, [.update 0, .update 3, .update 0, .incr, .check]),
    (none, [.update 0, .update 3, .update 0, .incr, .check])]⟩ := by decide

/-- **C47** is violated by the real `tqdm.update`, whose `self.n += k` reads and writes in two operations: with
two devices and one evaluation each there is a schedule after which all threads have finished and the
bar is closed at 1 of 2 evaluations. -/
theorem C47_progress_refuted : ∃ s t, startProgress false 2 2 50 = .ok s ∧
    Relation.ReflTransGen (PStep 2) s t ∧ (∀ th ∈ t.threads, th.2 = []) ∧ t.closed = true ∧ t.n = 1 := by
  let p : List Op := [.load, .store 0, .load, .store 1, .load, .store 0, .incr, .check]
  refine ⟨⟨0, false, 0, [(none, p), (none, p)]⟩, ⟨1, true, 2, [(none, []), (none, [])]⟩, by decide, ?_,
    by simp, rfl, rfl⟩
  have first : ∀ (reg : Option Nat) (op : Op) (ops : List Op) (w : Option Nat × List Op) (n : Nat)
      (c : Bool) (k : Nat), PStep 2 ⟨n, c, k, [(reg, op :: ops), w]⟩
        ⟨(runOp 2 op reg n c k).2.1, (runOp 2 op reg n c k).2.2.1, (runOp 2 op reg n c k).2.2.2,
          [((runOp 2 op reg n c k).1, ops), w]⟩ := fun reg op ops w n c k => PStep.mk [] [w] reg op ops n c k
  have second : ∀ (reg : Option Nat) (op : Op) (ops : List Op) (w : Option Nat × List Op) (n : Nat)
      (c : Bool) (k : Nat), PStep 2 ⟨n, c, k, [w, (reg, op :: ops)]⟩
        ⟨(runOp 2 op reg n c k).2.1, (runOp 2 op reg n c k).2.2.1, (runOp 2 op reg n c k).2.2.2,
          [w, ((runOp 2 op reg n c k).1, ops)]⟩ := fun reg op ops w n c k => PStep.mk [w] [] reg op ops n c k
  refine .head (first _ _ _ _ _ _ _) ?_
  refine .head (first _ _ _ _ _ _ _) ?_
  refine .head (second _ _ _ _ _ _ _) ?_
  refine .head (second _ _ _ _ _ _ _) ?_
  -- both threads read 0, both write 1
  refine .head (first _ _ _ _ _ _ _) ?_
  refine .head (second _ _ _ _ _ _ _) ?_
  refine .head (first _ _ _ _ _ _ _) ?_
  refine .head (second _ _ _ _ _ _ _) ?_
  refine .head (first _ _ _ _ _ _ _) ?_
  refine .head (first _ _ _ _ _ _ _) ?_
  refine .head (first _ _ _ _ _ _ _) ?_
  refine .head (first _ _ _ _ _ _ _) ?_
  refine .head (second _ _ _ _ _ _ _) ?_
  refine .head (second _ _ _ _ _ _ _) ?_
  refine .head (second _ _ _ _ _ _ _) ?_
  refine .head (second _ _ _ _ _ _ _) ?_
  exact .refl

end Elisa.Util
