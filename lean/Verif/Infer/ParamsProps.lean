import Verif.Infer.Params

/-!
# C50 (array / mapping conversion) and C51 (parameter selection)
-/

namespace Elisa.Infer

open Elisa

/-! ## Helper lemmas: sorting by index -/

theorem sorted_by_index (ref xs : List String) :
    (xs.insertionSort fun a b => ref.idxOf a ≤ ref.idxOf b).Pairwise fun a b => ref.idxOf a ≤ ref.idxOf b := by
  haveI : Std.Total (fun a b : String => ref.idxOf a ≤ ref.idxOf b) := ⟨fun a b => by omega⟩
  haveI : IsTrans String (fun a b : String => ref.idxOf a ≤ ref.idxOf b) := ⟨fun a b c h1 h2 => by omega⟩
  exact List.pairwise_insertionSort _ _

theorem sortByIndex_spec (ref xs ys : List String) (h : sortByIndex ref xs = .ok ys) (hx : xs.Nodup) :
    ys.Perm xs ∧ ys.Nodup ∧ ys.Sublist ref ∧ ∀ x ∈ xs, x ∈ ref := by
  unfold sortByIndex at h
  split at h
  · rename_i hmem
    cases h
    have hperm := List.perm_insertionSort (fun a b => ref.idxOf a ≤ ref.idxOf b) xs
    have hnd : (xs.insertionSort fun a b => ref.idxOf a ≤ ref.idxOf b).Nodup := hperm.nodup_iff.2 hx
    refine ⟨hperm, hnd, ?_, hmem⟩
    have hsorted := sorted_by_index ref xs
    generalize hzs : xs.insertionSort (fun a b => ref.idxOf a ≤ ref.idxOf b) = zs at *
    have hzm : ∀ z ∈ zs, z ∈ ref := fun z hz => hmem z (hperm.mem_iff.1 hz)
    clear hzs hperm
    -- strictly increasing positions make a sublist
    have key : ∀ (ref zs : List String), zs.Nodup → (∀ z ∈ zs, z ∈ ref) →
        zs.Pairwise (fun a b => ref.idxOf a ≤ ref.idxOf b) → zs.Sublist ref := by
      intro ref
      induction ref with
      | nil =>
        intro zs _ hm _
        cases zs with
        | nil => simp
        | cons z zs => exact absurd (hm z (by simp)) (by simp)
      | cons r ref ih =>
        intro zs hnd hm hp
        cases zs with
        | nil => simp
        | cons z zs =>
          have hnd' := List.nodup_cons.1 hnd
          have hp' := List.pairwise_cons.1 hp
          have htail : ∀ w ∈ zs, w ≠ r := by
            intro w hw hwr
            have h1 := hp'.1 w hw
            subst hwr
            rw [List.idxOf_cons_self] at h1
            have h2 : z ≠ w := fun e => hnd'.1 (e ▸ hw)
            rw [List.idxOf_cons_ne _ (Ne.symm h2)] at h1
            omega
          have hsub : zs.Pairwise fun a b => ref.idxOf a ≤ ref.idxOf b := by
            refine List.Pairwise.imp_of_mem ?_ hp'.2
            intro a b ha hb hab
            rw [List.idxOf_cons_ne _ (Ne.symm (htail a ha)), List.idxOf_cons_ne _ (Ne.symm (htail b hb))] at hab
            omega
          have hms : ∀ w ∈ zs, w ∈ ref := fun w hw => by
            rcases List.mem_cons.1 (hm w (by simp [hw])) with h | h
            · exact absurd h (htail w hw)
            · exact h
          by_cases hzr : z = r
          · subst hzr
            exact (ih zs hnd'.2 hms hsub).cons_cons z
          · have hz : z ∈ ref := by
              rcases List.mem_cons.1 (hm z (by simp)) with h | h
              · exact absurd h hzr
              · exact h
            refine (ih (z :: zs) hnd ?_ ?_).cons r
            · intro w hw
              rcases List.mem_cons.1 hw with rfl | hw
              · exact hz
              · exact hms w hw
            · refine List.pairwise_cons.2 ⟨?_, hsub⟩
              intro w hw
              have h1 := hp'.1 w hw
              rw [List.idxOf_cons_ne _ (Ne.symm hzr), List.idxOf_cons_ne _ (Ne.symm (htail w hw))] at h1
              omega
    exact key ref zs hnd hzm hsorted
  · cases h

/-- Two duplicate-free lists with the same members sort to the same list. -/
theorem sortByIndex_unique (ref xs xs' ys ys' : List String) (h : sortByIndex ref xs = .ok ys)
    (h' : sortByIndex ref xs' = .ok ys') (hx : xs.Nodup) (hx' : xs'.Nodup) (hm : ∀ x, x ∈ xs ↔ x ∈ xs') :
    ys = ys' := by
  have s := sortByIndex_spec ref xs ys h hx
  have s' := sortByIndex_spec ref xs' ys' h' hx'
  have hp : ys.Perm ys' := (List.perm_ext_iff_of_nodup s.2.1 s'.2.1).2 fun a => by
    rw [s.1.mem_iff, s'.1.mem_iff]; exact hm a
  have hs : ∀ zs us, sortByIndex ref us = .ok zs → zs.Pairwise fun a b => ref.idxOf a ≤ ref.idxOf b := by
    intro zs us hzs
    unfold sortByIndex at hzs
    split at hzs
    · cases hzs
      exact sorted_by_index ref us
    · cases hzs
  refine List.Perm.eq_of_pairwise (le := fun a b => ref.idxOf a ≤ ref.idxOf b) ?_ (hs ys xs h) (hs ys' xs' h') hp
  intro a b ha hb h1 h2
  have hae : ref.idxOf a = ref.idxOf b := by omega
  have ham : a ∈ ref := s.2.2.2 a (s.1.mem_iff.1 ha)
  exact (List.idxOf_inj ham).1 hae

/-! ## C51 -/

/-- The names a caller asks for. -/
def requested (h : ParamTable) : ParamArg → Option (List String)
  | .none => some h.interest
  | .one p => some [p]
  | .many ps => some ps
  | .other => none

/-- A name that a caller may ask for: it exists, and where it is a parameter of a model component, that
parameter is free or composite (not linked to another one, fixed or integrated out). -/
def Selectable (h : ParamTable) (p : String) : Prop :=
  (p ∈ h.all ∨ ∃ e ∈ h.setup, e.1 = p) ∧ ∀ e ∈ h.setup, e.1 = p → e.2.2 = .free ∨ e.2.2 = .composite

/-- What the model compiler guarantees: a free or composite component parameter is in the list of all
parameters (helper.py:372-374, 381-384), and so are the parameters of interest. -/
def ParamTable.Consistent (h : ParamTable) : Prop :=
  (∀ e ∈ h.setup, e.2.2 = .free ∨ e.2.2 = .composite → e.1 ∈ h.all) ∧ ∀ p ∈ h.interest, p ∈ h.all

theorem mem_withRole (h : ParamTable) (r : Setup) (p : String) :
    p ∈ h.withRole r ↔ ∃ e ∈ h.setup, e.1 = p ∧ e.2.2 = r := by
  unfold ParamTable.withRole
  simp only [List.mem_map, List.mem_filter, decide_eq_true_eq]
  constructor
  · rintro ⟨e, ⟨h1, h2⟩, h3⟩; exact ⟨e, h1, h3, h2⟩
  · rintro ⟨e, h1, h2, h3⟩; exact ⟨e, ⟨h1, h3⟩, h2⟩

theorem checkParams_tail (h : ParamTable) (params : List String) (hn : params.Nodup)
    (hknown : ∀ p ∈ params, p ∈ h.all ++ h.setup.map (·.1)) (hc : h.Consistent) :
    ((∀ p ∈ params, Selectable h p) → ∃ r,
      (do if ∃ p ∈ params, p ∈ h.withRole .forwarded then throw PyErr.runtimeError
          if ∃ p ∈ params, p ∈ h.withRole .fixed then throw PyErr.runtimeError
          if ∃ p ∈ params, p ∈ h.withRole .integrated then throw PyErr.runtimeError
          sortByIndex h.all params : Except PyErr (List String)) = .ok r ∧
      r.Nodup ∧ r.Sublist h.all ∧ ∀ p, p ∈ r ↔ p ∈ params) ∧
    ((∃ p ∈ params, ¬ Selectable h p) →
      (do if ∃ p ∈ params, p ∈ h.withRole .forwarded then throw PyErr.runtimeError
          if ∃ p ∈ params, p ∈ h.withRole .fixed then throw PyErr.runtimeError
          if ∃ p ∈ params, p ∈ h.withRole .integrated then throw PyErr.runtimeError
          sortByIndex h.all params : Except PyErr (List String)) = .error .runtimeError) := by
  have hk : ∀ p ∈ params, p ∈ h.all ∨ ∃ e ∈ h.setup, e.1 = p := by
    intro p hp
    have := hknown p hp
    simpa using this
  constructor
  · intro hsel
    have hno : ∀ r : Setup, r ≠ .free → r ≠ .composite → ¬ ∃ p ∈ params, p ∈ h.withRole r := by
      rintro r hr1 hr2 ⟨p, hp, hpr⟩
      obtain ⟨e, he, hep, her⟩ := (mem_withRole h r p).1 hpr
      rcases (hsel p hp).2 e he hep with h | h
      · exact hr1 (her ▸ h)
      · exact hr2 (her ▸ h)
    rw [if_neg (hno .forwarded (by decide) (by decide)), if_neg (hno .fixed (by decide) (by decide)),
      if_neg (hno .integrated (by decide) (by decide))]
    have hall : ∀ p ∈ params, p ∈ h.all := by
      intro p hp
      rcases hk p hp with h1 | ⟨e, he, hep⟩
      · exact h1
      · have := hc.1 e he ((hsel p hp).2 e he hep)
        rwa [hep] at this
    have hs : sortByIndex h.all params =
        .ok (params.insertionSort fun a b => h.all.idxOf a ≤ h.all.idxOf b) := by
      unfold sortByIndex; rw [if_pos hall]
    have sp := sortByIndex_spec _ _ _ hs hn
    exact ⟨_, hs, sp.2.1, sp.2.2.1, fun p => sp.1.mem_iff⟩
  · rintro ⟨p, hp, hns⟩
    have hbad : ∃ e ∈ h.setup, e.1 = p ∧ e.2.2 ≠ .free ∧ e.2.2 ≠ .composite := by
      by_contra hno
      push Not at hno
      apply hns
      refine ⟨hk p hp, fun e he hep => ?_⟩
      by_cases hf : e.2.2 = .free
      · exact .inl hf
      · exact .inr (hno e he hep hf)
    obtain ⟨e, he, hep, h1, h2⟩ := hbad
    have hrole : p ∈ h.withRole e.2.2 := (mem_withRole h _ p).2 ⟨e, he, hep, rfl⟩
    by_cases hF : ∃ p ∈ params, p ∈ h.withRole .forwarded
    · rw [if_pos hF]; rfl
    · rw [if_neg hF]
      by_cases hX : ∃ p ∈ params, p ∈ h.withRole .fixed
      · rw [if_pos hX]; rfl
      · rw [if_neg hX]
        by_cases hI : ∃ p ∈ params, p ∈ h.withRole .integrated
        · rw [if_pos hI]; rfl
        · exfalso
          revert hrole
          cases hr : e.2.2 with
          | free => exact absurd hr h1
          | composite => exact absurd hr h2
          | forwarded => exact fun hrole => hF ⟨p, hp, hrole⟩
          | fixed => exact fun hrole => hX ⟨p, hp, hrole⟩
          | integrated => exact fun hrole => hI ⟨p, hp, hrole⟩

/-- **C51**: for every parameter table the compiler can produce and every argument, the selection is accepted
exactly when the argument is a name, a sequence of names or nothing, and every requested name is
selectable; the result then has exactly the requested names (the parameters of interest when nothing
is requested), without repetition, in the order of the list of all parameters. -/
theorem C51_selection (h : ParamTable) (hc : h.Consistent) (arg : ParamArg) :
    ((∃ names, requested h arg = some names ∧ ∀ p ∈ names, Selectable h p) →
      ∃ r, checkParams h arg = .ok r ∧ r.Nodup ∧ r.Sublist h.all ∧
        ∀ p, p ∈ r ↔ ∃ names, requested h arg = some names ∧ p ∈ names) ∧
    ((¬ ∃ names, requested h arg = some names ∧ ∀ p ∈ names, Selectable h p) →
      checkParams h arg = .error .valueError ∨ checkParams h arg = .error .runtimeError) := by
  have known : ∀ p, Selectable h p → p ∈ h.all ++ h.setup.map (·.1) := by
    intro p hp
    rcases hp.1 with h1 | ⟨e, he, hep⟩
    · exact List.mem_append_left _ h1
    · exact List.mem_append_right _ (List.mem_map.2 ⟨e, he, hep⟩)
  constructor
  · rintro ⟨names, hreq, hsel⟩
    have hiff : ∀ p, (∃ names, requested h arg = some names ∧ p ∈ names) ↔ p ∈ names := by
      intro p; rw [hreq]; simp
    simp only [hiff]
    cases arg with
    | none =>
      cases hreq
      have t := (checkParams_tail h h.interest.dedup (List.nodup_dedup _)
        (fun p hp => List.mem_append_left _ (hc.2 p (by simpa using hp))) hc).1
        (fun p hp => hsel p (by simpa using hp))
      obtain ⟨r, h1, h2, h3, h4⟩ := t
      exact ⟨r, h1, h2, h3, by simpa using h4⟩
    | one p =>
      cases hreq
      have hkn := known p (hsel p (by simp))
      have t := (checkParams_tail h [p] (by simp) (by simpa using hkn) hc).1 hsel
      obtain ⟨r, h1, h2, h3, h4⟩ := t
      refine ⟨r, ?_, h2, h3, by simpa using h4⟩
      simp only [checkParams, hkn, if_true]
      exact h1
    | many ps =>
      obtain rfl : ps = names := by simpa [requested] using hreq
      have hkn : ∀ p ∈ ps.dedup, p ∈ h.all ++ h.setup.map (·.1) :=
        fun p hp => known p (hsel p (by simpa using hp))
      have t := (checkParams_tail h ps.dedup (List.nodup_dedup _) hkn hc).1
        (fun p hp => hsel p (by simpa using hp))
      obtain ⟨r, h1, h2, h3, h4⟩ := t
      refine ⟨r, ?_, h2, h3, by simpa using h4⟩
      simp only [checkParams]
      rw [if_pos hkn]
      exact h1
    | other => cases hreq
  · intro hno
    cases arg with
    | none =>
      right
      have : ∃ p ∈ h.interest.dedup, ¬ Selectable h p := by
        by_contra hall
        push Not at hall
        exact hno ⟨_, rfl, fun p hp => hall p (by simpa using hp)⟩
      exact (checkParams_tail h h.interest.dedup (List.nodup_dedup _)
        (fun p hp => List.mem_append_left _ (hc.2 p (by simpa using hp))) hc).2 this
    | one p =>
      have hns : ¬ Selectable h p := fun hs => hno ⟨[p], rfl, by simpa using hs⟩
      by_cases hkn : p ∈ h.all ++ h.setup.map (·.1)
      · right
        have := (checkParams_tail h [p] (by simp) (by simpa using hkn) hc).2 ⟨p, by simp, hns⟩
        simp only [checkParams, hkn, if_true]
        exact this
      · left
        simp only [checkParams, hkn, if_false]
        rfl
    | many ps =>
      by_cases hkn : ∀ p ∈ ps.dedup, p ∈ h.all ++ h.setup.map (·.1)
      · right
        have : ∃ p ∈ ps.dedup, ¬ Selectable h p := by
          by_contra hall
          push Not at hall
          exact hno ⟨_, rfl, fun p hp => hall p (by simpa using hp)⟩
        have := (checkParams_tail h ps.dedup (List.nodup_dedup _) hkn hc).2 this
        simp only [checkParams]
        rw [if_pos hkn]
        exact this
      · left
        simp only [checkParams]
        rw [if_neg hkn]
        rfl
    | other => left; rfl

/-- **C51**, order of the request: two requests for the same names, in any order and with any repetitions, give
the same list. -/
theorem C51_order_irrelevant (h : ParamTable) (ps qs rp rq : List String) (hm : ∀ p, p ∈ ps ↔ p ∈ qs)
    (hp : checkParams h (.many ps) = .ok rp) (hq : checkParams h (.many qs) = .ok rq) : rp = rq := by
  have key : ∀ xs r, checkParams h (.many xs) = .ok r → sortByIndex h.all xs.dedup = .ok r := by
    intro xs r hx
    unfold checkParams at hx
    simp only at hx
    split at hx
    · simp only [bind, Except.bind, pure, Except.pure] at hx
      split at hx
      · cases hx
      · split at hx
        · cases hx
        · split at hx
          · cases hx
          · exact hx
    · cases hx
  exact sortByIndex_unique _ _ _ _ _ (key _ _ hp) (key _ _ hq) (List.nodup_dedup _) (List.nodup_dedup _)
    (by simpa using hm)

/-- A table with a free, a fixed, a linked and a composite parameter. -/
def exTable : ParamTable where
  all := ["PowerLaw.K", "PowerLaw.alpha", "Cutoff.Ec", "f"]
  interest := ["PowerLaw.K", "PowerLaw.alpha", "Cutoff.Ec"]
  setup := [("PowerLaw.K", "PowerLaw.K", .free), ("PowerLaw.alpha", "PowerLaw.alpha", .free),
    ("Cutoff.Ec", "Cutoff.Ec", .composite), ("Cutoff.z", "Cutoff.z", .fixed),
    ("Blackbody.K", "PowerLaw.K", .forwarded)]

example : exTable.Consistent := by
  constructor <;> simp [exTable]

example : checkParams exTable (.many ["f", "PowerLaw.K", "f"]) = .ok ["PowerLaw.K", "f"] := by decide +kernel
example : checkParams exTable (.one "Cutoff.z") = .error .runtimeError := by decide +kernel
example : checkParams exTable (.one "Blackbody.K") = .error .runtimeError := by decide +kernel
example : checkParams exTable (.one "nope") = .error .valueError := by decide +kernel

/-! ## C50 -/

theorem dictOf_snoc {V : Type} (pairs : List (String × V)) (x : String × V) :
    dictOf (pairs ++ [x]) = dictSet (dictOf pairs) x.1 x.2 := by
  simp [dictOf]

theorem dictOf_nodup {V : Type} (pairs : List (String × V)) (h : (pairs.map (·.1)).Nodup) :
    dictOf pairs = pairs := by
  induction pairs using List.reverseRecOn with
  | nil => rfl
  | append_singleton ps x ih =>
    rw [List.map_append, List.nodup_append] at h
    rw [dictOf_snoc, ih h.1, dictSet, if_neg]
    intro hm
    exact h.2.2 x.1 hm x.1 (by simp) rfl

theorem dictSet_keys {V : Type} (d : List (String × V)) (k : String) (v : V) :
    (dictSet d k v).map (·.1) = if k ∈ d.map (·.1) then d.map (·.1) else d.map (·.1) ++ [k] := by
  unfold dictSet
  split
  · rw [List.map_map]
    apply List.map_congr_left
    intro x _
    simp only [Function.comp]
    split
    · simp_all
    · rfl
  · simp

theorem dictOf_keys_nodup {V : Type} (pairs : List (String × V)) : ((dictOf pairs).map (·.1)).Nodup ∧
    ∀ k, k ∈ (dictOf pairs).map (·.1) ↔ k ∈ pairs.map (·.1) := by
  induction pairs using List.reverseRecOn with
  | nil => simp [dictOf]
  | append_singleton ps x ih =>
    rw [dictOf_snoc, dictSet_keys]
    split
    · rename_i hm
      refine ⟨ih.1, fun k => ?_⟩
      rw [ih.2, List.map_append, List.mem_append]
      constructor
      · exact .inl
      · rintro (h | h)
        · exact h
        · have : k = x.1 := by simpa using h
          rw [this]; exact (ih.2 _).1 hm
    · rename_i hm
      refine ⟨List.nodup_append.2 ⟨ih.1, by simp, ?_⟩, fun k => ?_⟩
      · rintro a ha b hb rfl
        have : a = x.1 := by simpa using hb
        exact hm (this ▸ ha)
      · rw [List.mem_append, ih.2, List.map_append, List.mem_append]
        simp

theorem lookup_zip {V : Type} (ks : List String) (vs : List V) (h : ks.Nodup) (i : Nat) (k : String)
    (hk : ks[i]? = some k) : (ks.zip vs).lookup k = vs[i]? := by
  induction ks generalizing vs i with
  | nil => simp at hk
  | cons a ks ih =>
    cases vs with
    | nil => simp
    | cons v vs =>
      rw [List.zip_cons_cons, List.lookup_cons]
      cases i with
      | zero =>
        have : a = k := by simpa using hk
        subst this; simp
      | succ i =>
        have hk' : ks[i]? = some k := by simpa using hk
        have hne : (k == a) = false := by
          rw [beq_eq_false_iff_ne]; rintro rfl
          exact (List.nodup_cons.1 h).1 (List.mem_of_getElem? hk')
        rw [hne]
        simpa using ih vs (List.nodup_cons.1 h).2 i hk'

theorem mapM_ok_iff {A B : Type} (f : A → Except PyErr B) (xs : List A) (ys : List B) :
    xs.mapM f = .ok ys ↔ xs.length = ys.length ∧ ∀ (i : Nat) x, xs[i]? = some x → ∃ y, ys[i]? = some y ∧ f x = .ok y := by
  induction xs generalizing ys with
  | nil =>
    simp [pure, Except.pure]
    exact ⟨fun h => by rw [h]; rfl, fun h => List.length_eq_zero_iff.1 h.symm⟩
  | cons x xs ih =>
    rw [List.mapM_cons]
    cases hf : f x with
    | error e =>
      simp only [bind, Except.bind]
      constructor
      · intro h; cases h
      · rintro ⟨_, h⟩
        obtain ⟨y, _, hy⟩ := h 0 x rfl
        rw [hf] at hy; cases hy
    | ok y =>
      simp only [bind, Except.bind]
      cases hm : xs.mapM f with
      | error e =>
        simp only
        constructor
        · intro h; cases h
        · rintro ⟨hl, h⟩
          cases ys with
          | nil => simp at hl
          | cons z zs =>
            have := (ih zs).2 ⟨by simpa using hl, fun i a ha => by simpa using h (i + 1) a (by simpa using ha)⟩
            rw [hm] at this; cases this
      | ok zs =>
        have ih' := (ih zs).1 hm
        simp only [pure, Except.pure]
        constructor
        · intro h
          cases h
          refine ⟨by simp [ih'.1], ?_⟩
          intro i a ha
          cases i with
          | zero =>
            have : x = a := by simpa using ha
            subst this; exact ⟨y, rfl, hf⟩
          | succ i => simpa using ih'.2 i a (by simpa using ha)
        · rintro ⟨hl, h⟩
          cases ys with
          | nil => simp at hl
          | cons w ws =>
            have h0 := h 0 x rfl
            simp only [List.getElem?_cons_zero, Option.some.injEq] at h0
            obtain ⟨_, rfl, hw⟩ := h0
            rw [hf] at hw; cases hw
            have := (ih ws).2 ⟨by simpa using hl, fun i a ha => by simpa using h (i + 1) a (by simpa using ha)⟩
            rw [hm] at this; cases this
            rfl

/-- **C50**, names: the free parameters of a fit are the sampled parameters, each once, in the order of the list
of all parameters. -/
theorem C50_free_names (paramsNames sampled free : List String) (h : freeNames paramsNames sampled = .ok free) :
    free.Nodup ∧ free.Sublist paramsNames ∧ ∀ p, p ∈ free ↔ p ∈ sampled := by
  have hk := dictOf_keys_nodup (sampled.map fun k => (k, ()))
  have sp := sortByIndex_spec _ _ _ h hk.1
  refine ⟨sp.2.1, sp.2.2.1, fun p => ?_⟩
  rw [sp.1.mem_iff, hk.2]
  simp

/-- **C50**, array → mapping → array: for the free parameters of any fit, an array of the right length becomes a
mapping in which the `i`-th free parameter has the `i`-th value, and converting back returns the
array; an array of another length is refused. -/
theorem C50_array_roundtrip {V : Type} (paramsNames sampled free : List String)
    (hfree : freeNames paramsNames sampled = .ok free) (arr : List V) :
    (arr.length = free.length → ∃ dic, arrToDic free arr = .ok dic ∧ dic.map (·.1) = free ∧
      (∀ (i : Nat) k, free[i]? = some k → dic.lookup k = arr[i]?) ∧ dicToArr free dic = .ok arr) ∧
    (arr.length ≠ free.length → arrToDic free arr = .error .assertionError) := by
  have hnd := (C50_free_names _ _ _ hfree).1
  constructor
  · intro hl
    have hkeys : (free.zip arr).map (·.1) = free := by
      rw [List.map_fst_zip]; omega
    have hd : dictOf (free.zip arr) = free.zip arr := dictOf_nodup _ (by rw [hkeys]; exact hnd)
    refine ⟨free.zip arr, by rw [arrToDic, if_pos hl, hd], hkeys, fun i k hk => lookup_zip _ _ hnd i k hk, ?_⟩
    rw [dicToArr, mapM_ok_iff]
    refine ⟨hl.symm, fun i k hk => ?_⟩
    have hi : i < free.length := (List.getElem?_eq_some_iff.1 hk).1
    refine ⟨arr[i], List.getElem?_eq_getElem _, ?_⟩
    rw [dictGet, lookup_zip _ _ hnd i k hk, List.getElem?_eq_getElem (by omega)]
  · intro hl
    rw [arrToDic, if_neg hl]

/-- **C50**, mapping → array → mapping: a mapping that has all free parameters becomes an array, and converting
back gives a mapping with exactly the free parameters and the values they had; a mapping without one
of them raises `KeyError`. -/
theorem C50_mapping_roundtrip {V : Type} (paramsNames sampled free : List String)
    (hfree : freeNames paramsNames sampled = .ok free) (dic : List (String × V)) :
    ((∀ k ∈ free, ∃ v, dic.lookup k = some v) → ∃ arr dic', dicToArr free dic = .ok arr ∧
      arrToDic free arr = .ok dic' ∧ dic'.map (·.1) = free ∧ ∀ k ∈ free, dic'.lookup k = dic.lookup k) ∧
    ((∃ k ∈ free, dic.lookup k = none) → dicToArr free dic = .error .keyError) := by
  have hnd := (C50_free_names _ _ _ hfree).1
  constructor
  · intro hall
    have hex : ∃ arr, dicToArr free dic = .ok arr := by
      clear hfree hnd
      unfold dicToArr
      induction free with
      | nil => exact ⟨[], rfl⟩
      | cons k ks ih =>
        obtain ⟨v, hv⟩ := hall k (by simp)
        obtain ⟨arr, ha⟩ := ih fun k hk => hall k (by simp [hk])
        refine ⟨v :: arr, ?_⟩
        rw [List.mapM_cons, ha, dictGet, hv]
        rfl
    obtain ⟨arr, ha⟩ := hex
    have hm := (mapM_ok_iff _ _ _).1 ha
    obtain ⟨dic', h1, h2, h3, _⟩ := (C50_array_roundtrip paramsNames sampled free hfree arr).1 hm.1.symm
    refine ⟨arr, dic', ha, h1, h2, fun k hk => ?_⟩
    obtain ⟨i, hi⟩ := List.getElem?_of_mem hk
    obtain ⟨v, hv, hg⟩ := hm.2 i k hi
    rw [h3 i k hi, hv]
    unfold dictGet at hg
    split at hg
    · rename_i v' hv'
      cases hg; exact hv'.symm
    · cases hg
  · rintro ⟨k, hk, hnone⟩
    clear hfree hnd
    unfold dicToArr
    induction free with
    | nil => cases hk
    | cons a ks ih =>
      rw [List.mapM_cons]
      cases ha : dic.lookup a with
      | none => rw [dictGet, ha]; rfl
      | some v =>
        have hk' : k ∈ ks := by
          rcases List.mem_cons.1 hk with rfl | h
          · rw [hnone] at ha; cases ha
          · exact h
        rw [dictGet, ha, ih hk']
        rfl

/-- Three free parameters given out of order, one aux parameter not sampled. -/
example : freeNames ["A.x", "A.y", "B.x", "c"] ["B.x", "A.x", "A.y"] = .ok ["A.x", "A.y", "B.x"] := by decide +kernel
example : dicToArr ["A.x", "A.y", "B.x"] [("B.x", 3), ("A.x", 1), ("c", 9), ("A.y", 2)] = .ok [1, 2, 3] := by
  decide +kernel

end Elisa.Infer
