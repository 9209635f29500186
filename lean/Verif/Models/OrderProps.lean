import Verif.Models.CompileProps

/-!
# C33, the order of the parameters
-/

namespace Elisa.Models.Info

open Elisa.Models.Label Elisa.Models.Track

section First
variable {A B : Type} [DecidableEq A] [DecidableEq B]

/-- Specification: `m` lists the members of `l`, each once, in the order in which they first appear in `l`. -/
def FirstSeen (l m : List A) : Prop :=
  m.Nodup ∧ (∀ x, x ∈ m ↔ x ∈ l) ∧ ∀ x ∈ m, ∀ y ∈ m, m.idxOf x < m.idxOf y ↔ l.idxOf x < l.idxOf y

/-- `list(dict.fromkeys(l))`, as written in the model (parameter.py:917-925, model.py:321-324). -/
def keepFirst (l : List A) : List A := l.reverse.dedup.reverse

theorem keepFirst_snoc (l : List A) (x : A) : keepFirst (l ++ [x]) = if x ∈ l then keepFirst l else keepFirst l ++ [x] := by
  unfold keepFirst
  rw [List.reverse_append, List.reverse_singleton, List.singleton_append, List.dedup_cons]
  by_cases h : x ∈ l
  · simp [h]
  · simp [h]

theorem mem_keepFirst {l : List A} {x : A} : x ∈ keepFirst l ↔ x ∈ l := by simp [keepFirst]

theorem keepFirst_firstSeen (l : List A) : FirstSeen l (keepFirst l) := by
  refine ⟨by simp [keepFirst, List.nodup_dedup], fun x => mem_keepFirst, ?_⟩
  induction l using List.reverseRecOn with
  | nil => intro x hx; simp [keepFirst] at hx
  | append_singleton l a ih =>
    intro x hx y hy
    rw [mem_keepFirst] at hx hy
    rw [keepFirst_snoc]
    by_cases ha : a ∈ l
    · have hx' : x ∈ l := by
        rcases List.mem_append.1 hx with h | h
        · exact h
        · rw [List.mem_singleton.1 h]; exact ha
      have hy' : y ∈ l := by
        rcases List.mem_append.1 hy with h | h
        · exact h
        · rw [List.mem_singleton.1 h]; exact ha
      rw [if_pos ha, List.idxOf_append_of_mem hx', List.idxOf_append_of_mem hy']
      exact ih x (mem_keepFirst.2 hx') y (mem_keepFirst.2 hy')
    · rw [if_neg ha]
      have hk : a ∉ keepFirst l := fun h => ha (mem_keepFirst.1 h)
      have hout : ∀ z, z ∈ l ++ [a] → z ∉ l → z = a := fun z hz hn => by
        rcases List.mem_append.1 hz with h | h
        · exact absurd h hn
        · exact List.mem_singleton.1 h
      have ea : (keepFirst l ++ [a]).idxOf a = (keepFirst l).length := by
        rw [List.idxOf_append_of_notMem hk]; simp
      have ea' : (l ++ [a]).idxOf a = l.length := by
        rw [List.idxOf_append_of_notMem ha]; simp
      by_cases hx' : x ∈ l
      · have kx := mem_keepFirst.2 hx'
        by_cases hy' : y ∈ l
        · have ky := mem_keepFirst.2 hy'
          rw [List.idxOf_append_of_mem kx, List.idxOf_append_of_mem ky, List.idxOf_append_of_mem hx', List.idxOf_append_of_mem hy']
          exact ih x kx y ky
        · have he := hout y hy hy'
          subst he
          rw [ea, ea', List.idxOf_append_of_mem kx, List.idxOf_append_of_mem hx']
          exact iff_of_true (List.idxOf_lt_length_iff.2 kx) (List.idxOf_lt_length_iff.2 hx')
      · have he := hout x hx hx'
        subst he
        by_cases hy' : y ∈ l
        · have ky := mem_keepFirst.2 hy'
          rw [ea, ea', List.idxOf_append_of_mem ky, List.idxOf_append_of_mem hy']
          exact iff_of_false (not_lt.2 (List.idxOf_lt_length_iff.2 ky).le) (not_lt.2 (List.idxOf_lt_length_iff.2 hy').le)
        · have he := hout y hy hy'
          subst he
          simp

theorem keepFirst_append (a b : List A) : keepFirst (a ++ b) = keepFirst a ++ (keepFirst b).filter (· ∉ a) := by
  induction b using List.reverseRecOn with
  | nil => simp [keepFirst]
  | append_singleton b x ih =>
    rw [← List.append_assoc, keepFirst_snoc, ih, keepFirst_snoc]
    by_cases h1 : x ∈ a <;> by_cases h2 : x ∈ b <;> simp [h1, h2, List.filter_append]

theorem keepFirst_map_keepFirst (f : A → B) (l : List A) : keepFirst ((keepFirst l).map f) = keepFirst (l.map f) := by
  induction l using List.reverseRecOn with
  | nil => simp [keepFirst]
  | append_singleton l x ih =>
    rw [keepFirst_snoc, List.map_append, List.map_singleton, keepFirst_snoc]
    by_cases h : x ∈ l
    · rw [if_pos h, ih, if_pos (List.mem_map_of_mem h)]
    · rw [if_neg h, List.map_append, List.map_singleton, keepFirst_snoc, ih]
      have : f x ∈ (keepFirst l).map f ↔ f x ∈ l.map f := by simp [mem_keepFirst]
      by_cases h' : f x ∈ l.map f
      · rw [if_pos h', if_pos (this.2 h')]
      · rw [if_neg h', if_neg fun h => h' (this.1 h)]

theorem keepFirst_filter (p : A → Bool) (l : List A) : (keepFirst l).filter p = keepFirst (l.filter p) := by
  induction l using List.reverseRecOn with
  | nil => simp [keepFirst]
  | append_singleton l x ih =>
    rw [keepFirst_snoc, List.filter_append]
    cases hp : p x with
    | true =>
      have : (x ∈ l.filter p) ↔ x ∈ l := by simp [hp]
      simp only [List.filter_cons, hp, List.filter_nil, if_true]
      rw [keepFirst_snoc]
      by_cases h : x ∈ l
      · rw [if_pos h, if_pos (this.2 h), ih]
      · rw [if_neg h, if_neg fun h' => h (this.1 h'), List.filter_append, ih]
        simp [hp]
    | false =>
      simp only [List.filter_cons, hp, List.filter_nil, Bool.false_eq_true, if_false, List.append_nil]
      by_cases h : x ∈ l
      · rw [if_pos h, ih]
      · rw [if_neg h, List.filter_append, ih]
        simp [hp]

end First

/-- **C33 (order).**  The values of a positional evaluation are those of the names in this order: the free parameters in the order in which they first
appear when the components are read one after the other, slot by slot, and the expression in a slot from left to right. -/
theorem C33_order {K : Type} {conf : Conf K} {comps : List Comp} (hw : WF conf comps) {c : Compiled K} (h : compile conf comps = .ok c) :
    FirstSeen ((((slots comps).flatMap fun s => s.e.leaves).filter fun p => conf.kind p = .free).map c.name) c.paramsName := by
  have hkey : c.paramsName = keepFirst ((((slots comps).flatMap fun s => s.e.leaves).filter fun p => conf.kind p = .free).map c.name) := by
    have hp : c.paramsId = ((slots comps).flatMap fun s => nodesId s.e).filter (· ∈ sampleIds conf comps) := (compile_ok h).1
    have hfree : c.paramsId = ((slots comps).flatMap fun s => nodesId s.e).filter fun p => conf.kind p = .free := by
      rw [hp]
      apply List.filter_congr
      intro p hm
      obtain ⟨s, hs, hps⟩ := List.mem_flatMap.1 hm
      have : p ∈ sampleIds conf comps ↔ conf.kind p = .free := by
        constructor
        · exact fun h' => ((mem_sampleIds hw).1 h').1
        · intro hf
          have hmem : p ∈ c.paramsId ∨ p ∉ c.paramsId := Classical.em _
          refine (mem_sampleIds hw).2 ⟨hf, ?_⟩
          obtain ⟨cc, hcc, hs'⟩ := List.mem_flatMap.1 hs
          obtain ⟨x, hx, rfl⟩ := List.mem_map.1 hs'
          exact ⟨cc.cid, x.1, x.2, ⟨cc, hcc, rfl, hx⟩, mem_nodesId.1 hps⟩
      simp [this]
    have hsteps : ∀ (l : List Slot), keepFirst (l.flatMap fun s => nodesId s.e) = keepFirst (l.flatMap fun s => s.e.leaves) := by
      intro l
      induction l with
      | nil => rfl
      | cons s l ih =>
        simp only [List.flatMap_cons]
        rw [keepFirst_append, keepFirst_append, ih]
        have e1 : keepFirst (nodesId s.e) = keepFirst s.e.leaves := by
          have := keepFirst_map_keepFirst (fun x : Pid => x) s.e.leaves
          simpa [nodesId, keepFirst] using this
        rw [e1]
        congr 1
        apply List.filter_congr
        intro x _
        simp [nodesId]
    show keepFirst (c.paramsId.map c.name) = _
    rw [hfree, ← keepFirst_map_keepFirst, ← keepFirst_filter, hsteps, keepFirst_filter, keepFirst_map_keepFirst]
  rw [hkey]
  exact keepFirst_firstSeen _

/-- Non-vacuity: the model `demo` of `C30`, whose parameters are read as `alpha`, `K` although `K` and `alpha` appear again. -/
example : ∃ c, compile demoConf demo = .ok c ∧ WF demoConf demo ∧ c.paramsName = ["PowerLaw.alpha", "PowerLaw.K"] :=
  ⟨_, rfl, demo_wf, by decide +kernel⟩

end Elisa.Models.Info
