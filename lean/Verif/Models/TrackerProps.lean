import Verif.Models.Tracker

/-!
# C28: the assignment record of a parameter mirrors the slots that hold it
-/

namespace Elisa.Models.Track

/-! ## Specification -/

/-- Addresses allocated by a history, in order. -/
def allocs (ops : List Op) : List Cid :=
  ops.filterMap fun | .alloc c => some c | _ => none

/-- No memory address is used for two components during the history. -/
def NoReuse (ops : List Op) : Prop := (allocs ops).Nodup

/-! ## Invariant -/

structure Inv (h : Heap) (used : List Cid) : Prop where
  live_used : ∀ c, h.live c → c ∈ used
  hist_used : ∀ p c n, (c, n) ∈ h.hist p → c ∈ used
  mirror : ∀ c n p, h.live c → ((c, n) ∈ h.hist p ↔ h.slot c n = some p)
  sorted : ∀ p, (h.hist p).Pairwise fun a b => h.since a < h.since b
  past : ∀ p r, r ∈ h.hist p → h.since r < h.clock

theorem Inv.nodup {h : Heap} {used} (hi : Inv h used) (p : Pid) : (h.hist p).Nodup :=
  (hi.sorted p).imp fun hab => by rintro rfl; exact lt_irrefl _ hab

theorem inv_init : Inv Heap.init [] := by
  constructor <;> simp [Heap.init]

/-- What is left of the trackers once the previous content has forgotten the slot. -/
theorem dropPrev_spec {h : Heap} {used} (hi : Inv h used) {c : Cid} (hc : h.live c) (n : PName) :
    ∃ hist, dropPrev h c n = some hist ∧ (∀ p, (hist p).Sublist (h.hist p)) ∧
      (∀ p, (c, n) ∉ hist p) ∧ (∀ p r, r ≠ (c, n) → (r ∈ hist p ↔ r ∈ h.hist p)) := by
  unfold dropPrev
  cases hs : h.slot c n with
  | none =>
    refine ⟨h.hist, rfl, fun p => .refl _, fun p hm => ?_, fun _ _ _ => Iff.rfl⟩
    rw [hi.mirror c n p hc, hs] at hm
    simp at hm
  | some q =>
    have hq : (c, n) ∈ h.hist q := (hi.mirror c n q hc).2 hs
    simp only [remove, hq, if_true]
    refine ⟨_, rfl, fun p => ?_, fun p hm => ?_, fun p r hr => ?_⟩
    · by_cases hpq : p = q
      · subst hpq; simp [List.erase_sublist]
      · simp [Function.update_of_ne hpq]
    · by_cases hpq : p = q
      · subst hpq
        simp only [Function.update_self] at hm
        exact (List.Nodup.not_mem_erase (hi.nodup p)) hm
      · simp only [Function.update_of_ne hpq] at hm
        rw [hi.mirror c n p hc, hs] at hm
        exact hpq (Option.some.inj hm).symm
    · by_cases hpq : p = q
      · subst hpq
        simp [List.mem_erase_of_ne hr]
      · simp [Function.update_of_ne hpq]

theorem inv_assign {h h' : Heap} {used} (hi : Inv h used) {c : Cid} (hc : h.live c) {n : PName} {p : Pid}
    (ha : assign h c n p = some h') : Inv h' used := by
  unfold assign at ha
  split at ha
  · cases ha
    exact ⟨hi.live_used, hi.hist_used, hi.mirror, hi.sorted,
      fun p r hr => Nat.lt_succ_of_lt (hi.past p r hr)⟩
  · obtain ⟨hist, hd, hsub, hno, hother⟩ := dropPrev_spec hi hc n
    rw [hd] at ha
    simp only [Option.some.injEq] at ha
    have happ : append (hist p) (c, n) = hist p ++ [(c, n)] := by simp [append, hno p]
    rw [happ] at ha
    subst ha
    have hmem : ∀ q r, r ∈ Function.update hist p (hist p ++ [(c, n)]) q ↔
        (r ≠ (c, n) ∧ r ∈ h.hist q) ∨ (r = (c, n) ∧ q = p) := by
      intro q r
      by_cases hr : r = (c, n)
      · subst hr
        by_cases hq : q = p
        · subst hq; simp
        · simp [Function.update_of_ne hq, hno q, hq]
      · by_cases hq : q = p
        · subst hq; simp [hr, hother]
        · simp [Function.update_of_ne hq, hr, hother]
    refine ⟨hi.live_used, ?_, ?_, ?_, ?_⟩
    · intro q c' n' hm
      rcases (hmem q _).1 hm with ⟨_, h2⟩ | ⟨h2, _⟩
      · exact hi.hist_used q c' n' h2
      · cases h2; exact hi.live_used c hc
    · intro c' n' q hl
      simp only [hmem]
      by_cases hr : (c', n') = (c, n)
      · cases hr
        simp [eq_comm]
      · have : Function.update h.slot c (Function.update (h.slot c) n (some p)) c' n' = h.slot c' n' := by
          by_cases hcc : c' = c
          · subst hcc
            have hnn : n' ≠ n := fun e => hr (by rw [e])
            simp [Function.update_of_ne hnn]
          · simp [Function.update_of_ne hcc]
        simp only [this, hr, ne_eq, not_false_eq_true, true_and, false_and, or_false]
        exact hi.mirror c' n' q hl
    · intro q
      have hbase : (hist q).Pairwise fun a b =>
          Function.update h.since (c, n) h.clock a < Function.update h.since (c, n) h.clock b := by
        refine ((hi.sorted q).sublist (hsub q)).imp_of_mem ?_
        intro a b ha hb hab
        have ha' : a ≠ (c, n) := fun e => hno q (e ▸ ha)
        have hb' : b ≠ (c, n) := fun e => hno q (e ▸ hb)
        simpa [Function.update_of_ne ha', Function.update_of_ne hb'] using hab
      by_cases hq : q = p
      · subst hq
        simp only [Function.update_self]
        rw [List.pairwise_append]
        refine ⟨hbase, by simp, ?_⟩
        intro a ha b hb
        simp only [List.mem_singleton] at hb
        subst hb
        have ha' : a ≠ (c, n) := fun e => hno q (e ▸ ha)
        simp only [Function.update_of_ne ha', Function.update_self]
        exact hi.past q a ((hsub q).subset ha)
      · simpa [Function.update_of_ne hq] using hbase
    · intro q r hm
      rcases (hmem q r).1 hm with ⟨h1, h2⟩ | ⟨h1, _⟩
      · simpa [Function.update_of_ne h1] using Nat.lt_succ_of_lt (hi.past q r h2)
      · subst h1; simp

theorem inv_step {h h' : Heap} {used} (hi : Inv h used) {op : Op} (hs : Step h op h')
    (hfresh : ∀ c, op = .alloc c → c ∉ used) :
    Inv h' (used ++ allocs [op]) := by
  cases hs with
  | alloc hc =>
    rename_i c
    have hf := hfresh c rfl
    simp only [allocs, List.filterMap_cons, List.filterMap_nil]
    refine ⟨?_, ?_, ?_, hi.sorted, hi.past⟩
    · rintro x (rfl | hx)
      · simp
      · simp [hi.live_used x hx]
    · intro p x n hm
      simp [hi.hist_used p x n hm]
    · rintro x n p hl
      by_cases hx : x = c
      · subst hx
        simp only [Function.update_self]
        constructor
        · intro hm; exact absurd (hi.hist_used p x n hm) hf
        · intro hm; cases hm
      · simp only [Function.update_of_ne hx]
        exact hi.mirror x n p (hl.resolve_left hx)
  | free hc =>
    simp only [allocs, List.filterMap_cons, List.filterMap_nil, List.append_nil]
    exact ⟨fun x hx => hi.live_used x hx.2, hi.hist_used, fun x n p hx => hi.mirror x n p hx.2,
      hi.sorted, hi.past⟩
  | newParam hp =>
    rename_i p
    simp only [allocs, List.filterMap_cons, List.filterMap_nil, List.append_nil]
    refine ⟨hi.live_used, ?_, ?_, ?_, ?_⟩
    · intro q x n hm
      by_cases hq : q = p
      · subst hq; simp at hm
      · simp only [Function.update_of_ne hq] at hm; exact hi.hist_used q x n hm
    · intro x n q hx
      by_cases hq : q = p
      · subst hq; simp [hp x n hx]
      · simp only [Function.update_of_ne hq]; exact hi.mirror x n q hx
    · intro q
      by_cases hq : q = p
      · subst hq; simp
      · simp only [Function.update_of_ne hq]; exact hi.sorted q
    · intro q r hm
      by_cases hq : q = p
      · subst hq; simp at hm
      · simp only [Function.update_of_ne hq] at hm; exact hi.past q r hm
  | assign hc ha =>
    simp only [allocs, List.filterMap_cons, List.filterMap_nil, List.append_nil]
    exact inv_assign hi hc ha
  | rejected =>
    simp only [allocs, List.filterMap_cons, List.filterMap_nil, List.append_nil]
    exact hi

theorem allocs_append (a b : List Op) : allocs (a ++ b) = allocs a ++ allocs b := by
  simp [allocs]

theorem inv_steps {ops : List Op} {h : Heap} (hs : Steps .init ops h) (hn : NoReuse ops) :
    Inv h (allocs ops) := by
  induction hs with
  | nil => exact inv_init
  | snoc hs1 hs2 ih =>
    rw [NoReuse, allocs_append, List.nodup_append] at hn
    rw [allocs_append]
    refine inv_step (ih hn.1) hs2 ?_
    rintro c rfl hmem
    exact hn.2.2 c hmem c (by simp [allocs]) rfl

/-! ## C28 -/

/-- **C28 (restricted).** After any sequence of component creations, deletions and parameter
assignments that never reuses the address of a deleted component: for every live component, the
record of a parameter lists a slot exactly when that slot currently holds the parameter, without
duplicates.

Missing: histories in which Python reuses an address, see `C28_address_reuse_refuted`. -/
theorem C28_mirror_partial (ops : List Op) (h : Heap) (hs : Steps .init ops h) (hn : NoReuse ops)
    (p : Pid) :
    (∀ c n, h.live c → ((c, n) ∈ h.hist p ↔ h.slot c n = some p)) ∧ (h.hist p).Nodup :=
  ⟨fun c n hl => (inv_steps hs hn).mirror c n p hl, (inv_steps hs hn).nodup p⟩

theorem append_nodup {l : List (Cid × PName)} (hl : l.Nodup) (r : Cid × PName) : (append l r).Nodup := by
  rw [append]
  split_ifs with h
  · exact hl
  · exact List.nodup_append.2 ⟨hl, by simp, by rintro x hx y hy rfl; simp at hy; exact h (hy ▸ hx)⟩

theorem dropPrev_nodup {h : Heap} {c : Cid} {n : PName} {hist} (hd : dropPrev h c n = some hist)
    (hn : ∀ p, (h.hist p).Nodup) (p : Pid) : (hist p).Nodup := by
  rw [dropPrev] at hd
  split at hd
  · cases hd; exact hn p
  · rename_i q _
    split at hd
    · cases hd
    · rename_i l hl
      cases hd
      rw [remove] at hl
      split_ifs at hl
      cases hl
      by_cases hq : p = q
      · subst hq; simpa using (hn p).erase _
      · simpa [Function.update_of_ne hq] using hn p

/-- **C28.** Whatever the history, address reuse included, a record never lists a slot twice. -/
theorem C28_listed_once (ops : List Op) (h : Heap) (hs : Steps .init ops h) : ∀ p, (h.hist p).Nodup := by
  induction hs with
  | nil => intro p; exact List.nodup_nil
  | snoc hs1 hs2 ih =>
    cases hs2 with
    | alloc hc => exact ih
    | free hc => exact ih
    | rejected => exact ih
    | newParam hp =>
      rename_i q
      intro p
      by_cases hq : p = q
      · subst hq; simp
      · simpa [Function.update_of_ne hq] using ih p
    | assign hc ha =>
      rename_i c n q
      rw [assign] at ha
      split_ifs at ha
      · cases ha; exact ih
      · split at ha
        · cases ha
        · rename_i hist hd
          cases ha
          intro p
          have h1 := dropPrev_nodup hd ih
          by_cases hq : p = q
          · subst hq; simpa using append_nodup (h1 p) _
          · simpa [Function.update_of_ne hq] using h1 p

/-- **C28.** Under the same condition an assignment to a slot of a live component never fails in the
bookkeeping (the removal of the previous record always finds it). -/
theorem C28_never_raises (ops : List Op) (h : Heap) (hs : Steps .init ops h) (hn : NoReuse ops)
    (c : Cid) (hc : h.live c) (n : PName) (p : Pid) :
    ∃ h', assign h c n p = some h' ∧ h'.slot c n = some p ∧ (c, n) ∈ h'.hist p ∧
      ∀ q, q ≠ p → (c, n) ∉ h'.hist q := by
  have hi := inv_steps hs hn
  obtain ⟨hist, hd, _⟩ := dropPrev_spec hi hc n
  have hex : ∃ h', assign h c n p = some h' := by
    unfold assign
    split
    · exact ⟨_, rfl⟩
    · rw [hd]; exact ⟨_, rfl⟩
  obtain ⟨h', ha⟩ := hex
  have hi' := inv_assign hi hc ha
  have hslot : h'.slot c n = some p := by
    unfold assign at ha
    split at ha
    · cases ha; assumption
    · rw [hd] at ha; cases ha; simp
  have hl : h'.live c := by
    unfold assign at ha
    split at ha
    · cases ha; exact hc
    · rw [hd] at ha; cases ha; exact hc
  refine ⟨h', ha, hslot, (hi'.mirror c n p hl).2 hslot, fun q hq hm => ?_⟩
  rw [hi'.mirror c n q hl, hslot] at hm
  exact hq (Option.some.inj hm).symm

/-- **C28.** The component slot under which a parameter is named in a model over live components:
none exactly when no slot of the model holds it, otherwise a slot of the model that currently holds
it, and the one that has held it for the longest time. -/
theorem C28_named_slot (ops : List Op) (h : Heap) (hs : Steps .init ops h) (hn : NoReuse ops)
    (p : Pid) (ids : List Cid) (hids : ∀ c ∈ ids, h.live c) :
    (getCompParam (h.hist p) ids = none ↔ ∀ c ∈ ids, ∀ n, h.slot c n ≠ some p) ∧
    ∀ r, getCompParam (h.hist p) ids = some r →
      r.1 ∈ ids ∧ h.slot r.1 r.2 = some p ∧
      ∀ c ∈ ids, ∀ n, h.slot c n = some p → h.since r ≤ h.since (c, n) := by
  have hi := inv_steps hs hn
  constructor
  · rw [getCompParam, List.find?_eq_none]
    constructor
    · intro hf c hc n hsl
      exact hf (c, n) ((hi.mirror c n p (hids c hc)).2 hsl) (by simpa using hc)
    · rintro hf ⟨c, n⟩ hr hc
      simp only [decide_eq_true_eq] at hc
      exact hf c hc n ((hi.mirror c n p (hids c hc)).1 hr)
  · intro r hr
    rw [getCompParam, List.find?_eq_some_iff_append] at hr
    obtain ⟨hr1, as, bs, hab, has⟩ := hr
    simp only [decide_eq_true_eq] at hr1
    have hmem : r ∈ h.hist p := by rw [hab]; simp
    refine ⟨hr1, (hi.mirror r.1 r.2 p (hids _ hr1)).1 hmem, fun c hc n hsl => ?_⟩
    have hm := (hi.mirror c n p (hids c hc)).2 hsl
    have hsorted := hi.sorted p
    rw [hab] at hm hsorted
    rcases List.mem_append.1 hm with hm | hm
    · have := has _ hm
      simp [hc] at this
    · rcases List.mem_cons.1 hm with hm | hm
      · rw [hm]
      · rw [List.pairwise_append] at hsorted
        exact (List.rel_of_pairwise_cons hsorted.2.1 hm).le

/-- A history with sharing, relinking and deletion: parameter 7 shared by two components, then the
first slot gets a new parameter 8. -/
def exOps : List Op :=
  [.alloc 1, .newParam 7, .assign 1 "alpha" 7, .alloc 2, .assign 2 "alpha" 7, .newParam 8,
   .assign 1 "alpha" 8]

theorem exSteps : ∃ h, Steps .init exOps h ∧ h.hist 7 = [(2, "alpha")] ∧ h.hist 8 = [(1, "alpha")] := by
  have s0 := Steps.nil Heap.init
  have s1 := s0.snoc (Step.alloc (c := 1) (by simp [Heap.init]))
  have s2 := s1.snoc (Step.newParam (p := 7) (by
    intro c n h; rcases h with rfl | h
    · simp
    · exact absurd h (by simp [Heap.init])))
  have s3 := s2.snoc (Step.assign (c := 1) (n := "alpha") (p := 7) (Or.inl rfl) rfl)
  have s4 := s3.snoc (Step.alloc (c := 2) (by simp [Heap.init]))
  have s5 := s4.snoc (Step.assign (c := 2) (n := "alpha") (p := 7) (Or.inl rfl) rfl)
  have s6 := s5.snoc (Step.newParam (p := 8) (by
    intro c n h
    rcases h with rfl | rfl | h
    · by_cases hn : n = "alpha" <;> simp [Function.update, hn, Heap.init]
    · by_cases hn : n = "alpha" <;> simp [Function.update, hn, Heap.init]
    · exact absurd h (by simp [Heap.init])))
  have s7 := s6.snoc (Step.assign (c := 1) (n := "alpha") (p := 8) (Or.inr (Or.inl rfl)) rfl)
  refine ⟨_, s7, ?_, ?_⟩ <;>
    simp [Function.update, append, Heap.init] <;> decide

example : NoReuse exOps := by simp [NoReuse, exOps, allocs]

/-- **C28 (refuted).** When the address of a deleted component is reused, a surviving parameter still
claims the slot of the new component: parameter 7 was used by a deleted component at address 1; the
new component at address 1 holds parameter 8 in the same slot, yet both parameters are recorded as
its owner, and both get the same name in a model made of that component. -/
theorem C28_address_reuse_refuted :
    ∃ (ops : List Op) (h : Heap), Steps .init ops h ∧ h.live 1 ∧ h.slot 1 "alpha" = some 8 ∧
      (1, "alpha") ∈ h.hist 7 ∧
      getCompParam (h.hist 7) [1] = some (1, "alpha") ∧ getCompParam (h.hist 8) [1] = some (1, "alpha") := by
  have s0 := Steps.nil Heap.init
  have s1 := s0.snoc (Step.alloc (c := 1) (by simp [Heap.init]))
  have s2 := s1.snoc (Step.newParam (p := 7) (by
    intro c n h; rcases h with rfl | h
    · simp
    · exact absurd h (by simp [Heap.init])))
  have s3 := s2.snoc (Step.assign (c := 1) (n := "alpha") (p := 7) (Or.inl rfl) rfl)
  have s4 := s3.snoc (Step.free (c := 1) (Or.inl rfl))
  have s5 := s4.snoc (Step.newParam (p := 8) (by
    intro c n h
    rcases h with ⟨h1, rfl | h⟩
    · exact absurd rfl h1
    · exact absurd h (by simp [Heap.init])))
  have s6 := s5.snoc (Step.alloc (c := 1) (by simp))
  have s7 := s6.snoc (Step.assign (c := 1) (n := "alpha") (p := 8) (Or.inl rfl) rfl)
  refine ⟨_, _, s7, Or.inl rfl, ?_, ?_, ?_, ?_⟩ <;>
    simp [Function.update, append, Heap.init, getCompParam]

end Elisa.Models.Track
