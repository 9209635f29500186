import Verif.Models.Protect
import Mathlib.Tactic

/-!
# C101: attributes of models, compiled models and components cannot be lost, added or mistyped
-/

namespace Elisa.Models.Protect

open Elisa

variable {V : Type}

theorem lookup_filter_ne (l : List (String × V)) (k k' : String) (h : k' ≠ k) : (l.filter fun kv => kv.1 != k).lookup k' = l.lookup k' := by
  induction l with
  | nil => rfl
  | cons a l ih =>
    obtain ⟨n, v⟩ := a
    by_cases hn : n = k
    · have : (n != k) = false := by simpa using hn
      rw [List.filter_cons_of_neg (by simpa using hn), ih]
      have : (k' == n) = false := by rw [hn]; simpa using h
      simp only [List.lookup, this]
    · rw [List.filter_cons_of_pos (by simpa using hn)]
      by_cases hk : k' = n
      · simp [List.lookup, hk]
      · have : (k' == n) = false := by simpa using hk
        simp only [List.lookup, this, ih]

theorem lookup_put (l : List (String × V)) (k k' : String) (v : V) : (put l k v).lookup k' = if k' = k then some v else l.lookup k' := by
  unfold put
  by_cases h : k' = k
  · subst h; simp [List.lookup]
  · have : (k' == k) = false := by simpa using h
    simp only [List.lookup, this, if_neg h, lookup_filter_ne l k k' h]

/-- What an accepted assignment does. -/
structure Assigned (o o' : Obj V) (k : String) (v' : V) : Prop where
  cls : o'.cls = o.cls
  flag : o'.initialized = o.initialized
  value : o'.get k = some v'
  rest : ∀ k', k' ≠ k → o'.get k' = o.get k'

theorem rawSet_assigned {check : String → V → Except PyErr V} {o o' : Obj V} {k : String} {v : V} (h : o.rawSet check k v = .ok o') :
    (∀ w, o.cls k ≠ some (.readOnly w)) ∧ ∃ v', Assigned o o' k v' ∧ (o.cls k ≠ some .settable → v' = v) ∧ (o.cls k = some .settable → check k v = .ok v') := by
  unfold Obj.rawSet at h
  cases hc : o.cls k with
  | none =>
    rw [hc] at h
    cases h
    refine ⟨by simp, v, ⟨rfl, rfl, ?_, ?_⟩, fun _ => rfl, by simp⟩
    · simp [Obj.get, hc, lookup_put]
    · intro k' hk
      simp only [Obj.get, lookup_put, if_neg hk]
  | some a =>
    rw [hc] at h
    cases a with
    | readOnly w => cases h
    | plain w =>
      cases h
      refine ⟨by simp, v, ⟨rfl, rfl, ?_, ?_⟩, fun _ => rfl, by simp⟩
      · simp [Obj.get, hc, lookup_put]
      · intro k' hk
        simp only [Obj.get, lookup_put, if_neg hk]
    | settable =>
      dsimp only at h
      cases hv : check k v with
      | error e => rw [hv] at h; cases h
      | ok v' =>
        rw [hv] at h
        cases h
        refine ⟨by simp, v', ⟨rfl, rfl, ?_, ?_⟩, by simp, fun _ => rfl⟩
        · simp [Obj.get, hc, lookup_put]
        · intro k' hk
          simp only [Obj.get, lookup_put, if_neg hk]

/-- **C101 (deletion).**  No attribute of a finished model, compiled model or component can be deleted, whether or not it exists. -/
theorem C101_delete (o : Obj V) (ho : o.initialized = true) (k : String) : o.del k = .error .attributeError := by
  unfold Obj.del
  by_cases h : o.has k = true
  · rw [ho, h]; rfl
  · have hf : o.has k = false := by simpa using h
    rw [ho, hf]
    simp only [Bool.and_false, Bool.false_eq_true, if_false]
    unfold Obj.rawDel
    unfold Obj.has Obj.get at hf
    cases hc : o.cls k with
    | none => rw [hc] at hf; dsimp only at hf ⊢; rw [if_neg (by rw [hf]; simp)]
    | some a =>
      cases a with
      | readOnly w => rfl
      | settable => rfl
      | plain w => rw [hc] at hf; simp at hf

/-- The state of an object as far as a user can see it after any history. -/
theorem history {set : Obj V → String → V → Except PyErr (Obj V)} {keep : String → Prop}
    (hset : ∀ o k v o', o.initialized = true → set o k v = .ok o' → o.has k = true ∧ ¬ keep k ∧ ∃ v', Assigned o o' k v')
    (o : Obj V) (ho : o.initialized = true) (hist : List (Op V)) :
    (hist.foldl (stepWith set) o).initialized = true ∧ (hist.foldl (stepWith set) o).cls = o.cls ∧ (∀ k, (hist.foldl (stepWith set) o).has k = o.has k) ∧
      ∀ k, keep k ∨ (∃ v, o.cls k = some (.readOnly v)) → (hist.foldl (stepWith set) o).get k = o.get k := by
  induction hist generalizing o with
  | nil => exact ⟨ho, rfl, fun _ => rfl, fun _ _ => rfl⟩
  | cons a hist ih =>
    rw [List.foldl_cons]
    have hone : (stepWith set o a).initialized = true ∧ (stepWith set o a).cls = o.cls ∧ (∀ k, (stepWith set o a).has k = o.has k) ∧
        ∀ k, keep k ∨ (∃ v, o.cls k = some (.readOnly v)) → (stepWith set o a).get k = o.get k := by
      cases a with
      | del k =>
        have : stepWith set o (.del k) = o := by simp only [stepWith, C101_delete o ho k]
        rw [this]
        exact ⟨ho, rfl, fun _ => rfl, fun _ _ => rfl⟩
      | set k v =>
        simp only [stepWith]
        cases hs : set o k v with
        | error e => exact ⟨ho, rfl, fun _ => rfl, fun _ _ => rfl⟩
        | ok o' =>
          obtain ⟨hh, hk, v', ha⟩ := hset o k v o' ho hs
          refine ⟨by rw [← ho]; exact ha.flag, ha.cls, ?_, ?_⟩
          · intro k'
            by_cases h : k' = k
            · subst h
              have : o'.has k' = true := by unfold Obj.has; rw [ha.value]; rfl
              rw [this, hh]
            · unfold Obj.has; rw [ha.rest k' h]
          · intro k' h'
            by_cases h : k' = k
            · subst h
              rcases h' with h' | ⟨w, h'⟩
              · exact absurd h' hk
              · have h1 : o'.cls k' = some (.readOnly w) := by rw [ha.cls]; exact h'
                unfold Obj.get
                rw [h1, h']
            · exact ha.rest k' h
    obtain ⟨g1, g2, g3, g4⟩ := ih (stepWith set o a) hone.1
    refine ⟨g1, g2.trans hone.2.1, fun k => (g3 k).trans (hone.2.2.1 k), ?_⟩
    intro k hk
    rw [g4 k (by rw [hone.2.1]; exact hk), hone.2.2.2 k hk]

theorem attach_ok {check : String → V → Except PyErr V} {comps : List (String × V)} {o o' : Obj V} (h : attach check o comps = .ok o')
    (hplain : ∀ n ∈ comps.map (·.1), o.cls n ≠ some .settable) (hn : (comps.map (·.1)).Nodup) :
    o'.initialized = true ∧ o'.cls = o.cls ∧ (∀ n c, (n, c) ∈ comps → o'.get n = some c) ∧ ∀ k, k ∉ comps.map (·.1) → o'.get k = o.get k := by
  induction comps generalizing o with
  | nil => cases h; exact ⟨rfl, rfl, by simp, fun _ _ => rfl⟩
  | cons a l ih =>
    obtain ⟨n, c⟩ := a
    simp only [attach] at h
    cases hs : o.rawSet check n c with
    | error e => rw [hs] at h; cases h
    | ok o1 =>
      rw [hs] at h
      obtain ⟨-, v', ha, hv, -⟩ := rawSet_assigned hs
      have hv' : v' = c := hv (hplain n (by simp))
      rw [List.map_cons, List.nodup_cons] at hn
      obtain ⟨g1, g2, g3, g4⟩ := ih h (fun m hm => by rw [ha.cls]; exact hplain m (List.mem_cons_of_mem _ hm)) hn.2
      refine ⟨g1, g2.trans ha.cls, ?_, ?_⟩
      · intro m d hm
        rcases List.mem_cons.1 hm with e | hm
        · cases e
          rw [g4 n hn.1, ha.value, hv']
        · exact g3 m d hm
      · intro k hk
        rw [List.map_cons, List.mem_cons, not_or] at hk
        rw [g4 k hk.2, ha.rest k hk.1]

/-- **C101 (models).**  A finished model keeps its components whatever is assigned or deleted afterwards (accepted or refused): every component is found under its name,
by attribute and by `model[name]`, other names give `KeyError`; no attribute appears or disappears, and read-only properties keep their values.  Assigning to a component
or to a name the model does not have is refused.  (Names starting with an underscore are not part of the interface: the flag and the table of names are not attributes here.) -/
theorem C101_model (check : String → V → Except PyErr V) (o₀ o : Obj V) (comps : List (String × V)) (h : attach check o₀ comps = .ok o)
    (hplain : ∀ n ∈ comps.map (·.1), o₀.cls n ≠ some .settable) (hn : (comps.map (·.1)).Nodup) (hist : List (Op V)) :
    let m := hist.foldl (stepWith (setModel (comps.map (·.1)) check)) o
    (∀ n c, (n, c) ∈ comps → m.get n = some c ∧ getItem (comps.map (·.1)) m n = .ok c) ∧
    (∀ k, k ∉ comps.map (·.1) → getItem (comps.map (·.1)) m k = .error .keyError) ∧
    (∀ k, m.has k = o.has k) ∧
    (∀ k v, o₀.cls k = some (.readOnly v) → m.get k = some v) ∧
    (∀ k v, k ∈ comps.map (·.1) ∨ o.has k = false → setModel (comps.map (·.1)) check m k v = .error .attributeError) := by
  intro m
  obtain ⟨a1, a2, a3, a4⟩ := attach_ok h hplain hn
  have hset : ∀ (o : Obj V) k v o', o.initialized = true → setModel (comps.map (·.1)) check o k v = .ok o' →
      o.has k = true ∧ ¬ (k ∈ comps.map (·.1)) ∧ ∃ v', Assigned o o' k v' := by
    intro o k v o' ho hs
    unfold setModel at hs
    rw [ho] at hs
    split at hs
    · cases hs
    · rename_i hc
      simp only [Bool.true_and, Bool.not_eq_true, Bool.or_eq_false_iff, Bool.not_eq_false', List.contains_eq_mem, decide_eq_false_iff_not] at hc
      obtain ⟨-, v', ha, -⟩ := rawSet_assigned hs
      exact ⟨hc.1, hc.2, v', ha⟩
  obtain ⟨g1, g2, g3, g4⟩ := history (keep := fun k => k ∈ comps.map (·.1)) hset o a1 hist
  have hget : ∀ n c, (n, c) ∈ comps → m.get n = some c := by
    intro n c hm
    have hmem : n ∈ comps.map (·.1) := List.mem_map.2 ⟨_, hm, rfl⟩
    have := g4 n (Or.inl hmem)
    exact this.trans (a3 n c hm)
  refine ⟨?_, ?_, g3, ?_, ?_⟩
  · intro n c hm
    have hmem : n ∈ comps.map (·.1) := List.mem_map.2 ⟨_, hm, rfl⟩
    refine ⟨hget n c hm, ?_⟩
    unfold getItem
    rw [hget n c hm]
    have : (comps.map (·.1)).contains n = true := by simpa [List.contains_eq_mem] using hmem
    rw [this]
    rfl
  · intro k hk
    unfold getItem
    have : (comps.map (·.1)).contains k = false := by rw [List.contains_eq_mem]; exact decide_eq_false hk
    rw [this]
    rfl
  · intro k v hk
    have h1 : m.cls k = some (.readOnly v) := by
      show (hist.foldl (stepWith (setModel (comps.map (·.1)) check)) o).cls k = _
      rw [g2, a2, hk]
    unfold Obj.get
    rw [h1]
  · intro k v hk
    unfold setModel
    have hi : m.initialized = true := g1
    rw [hi]
    rcases hk with hk | hk
    · have : (comps.map (·.1)).contains k = true := by rw [List.contains_eq_mem]; exact decide_eq_true hk
      rw [this]
      simp
    · have : m.has k = false := (g3 k).trans hk
      rw [this]
      simp

/-- **C101 (components).**  Whatever is assigned to or deleted from a finished component, no attribute appears or disappears and read-only properties keep their values;
assigning to a name it does not have (a misspelt parameter) raises `AttributeError`; an accepted assignment to a parameter or setting stores what its setter makes of the value
and changes nothing else. -/
theorem C101_component (check : String → V → Except PyErr V) (o : Obj V) (ho : o.initialized = true) (hist : List (Op V)) :
    let c := hist.foldl (stepWith (setComponent check)) o
    (∀ k, c.has k = o.has k) ∧ (∀ k v, o.cls k = some (.readOnly v) → c.get k = some v) ∧
    (∀ k v, o.has k = false → setComponent check c k v = .error .attributeError) ∧
    ∀ k v c', setComponent check c k v = .ok c' → (∀ k', k' ≠ k → c'.get k' = c.get k') ∧ (o.cls k = some .settable → ∃ v', check k v = .ok v' ∧ c'.get k = some v') := by
  intro c
  have hset : ∀ (o : Obj V) k v o', o.initialized = true → setComponent check o k v = .ok o' → o.has k = true ∧ ¬ False ∧ ∃ v', Assigned o o' k v' := by
    intro o k v o' ho hs
    unfold setComponent at hs
    rw [ho] at hs
    split at hs
    · cases hs
    · rename_i hc
      simp only [Bool.true_and, Bool.not_eq_true, Bool.not_eq_false'] at hc
      obtain ⟨-, v', ha, -⟩ := rawSet_assigned hs
      exact ⟨hc, id, v', ha⟩
  obtain ⟨g1, g2, g3, g4⟩ := history (keep := fun _ => False) hset o ho hist
  refine ⟨g3, ?_, ?_, ?_⟩
  · intro k v hk
    have h1 : c.cls k = some (.readOnly v) := by
      show (hist.foldl (stepWith (setComponent check)) o).cls k = _
      rw [g2, hk]
    unfold Obj.get
    rw [h1]
  · intro k v hk
    unfold setComponent
    have hi : c.initialized = true := g1
    have : c.has k = false := (g3 k).trans hk
    rw [hi, this]
    rfl
  · intro k v c' hs
    unfold setComponent at hs
    split at hs
    · cases hs
    · obtain ⟨-, v', ha, -, h2⟩ := rawSet_assigned hs
      refine ⟨ha.rest, fun hk => ⟨v', h2 ?_, ha.value⟩⟩
      show (hist.foldl (stepWith (setComponent check)) o).cls k = _
      rw [g2, hk]

/-- **C101 (compiled models).**  A compiled model never changes. -/
theorem C101_compiled (check : String → V → Except PyErr V) (o : Obj V) (ho : o.initialized = true) (hist : List (Op V)) :
    hist.foldl (stepWith (setCompiled check)) o = o := by
  induction hist with
  | nil => rfl
  | cons a hist ih =>
    rw [List.foldl_cons]
    have : stepWith (setCompiled check) o a = o := by
      cases a with
      | del k => simp only [stepWith, C101_delete o ho k]
      | set k v => simp only [stepWith, setCompiled, ho, if_true]
    rw [this, ih]

/-- A model with one component and the method `compile`, a read-only `name`; values are numbers. -/
def exModel : Obj Nat := ⟨fun k => if k = "compile" then some (.plain 1) else if k = "name" then some (.readOnly 2) else none, [("_name", 3)], [], false⟩

def exCheck : String → Nat → Except PyErr Nat := fun _ v => if v < 100 then .ok (v + 1) else .error .typeError

example : ∃ o, attach exCheck exModel [("PowerLaw", 7), ("Gauss", 8)] = .ok o ∧ o.get "Gauss" = some 8 ∧ setModel ["PowerLaw", "Gauss"] exCheck o "Gauss" 9 = .error .attributeError ∧
    setModel ["PowerLaw", "Gauss"] exCheck o "Gaus" 9 = .error .attributeError := ⟨_, rfl, rfl, rfl, rfl⟩

example : (∀ n ∈ ([("PowerLaw", 7), ("Gauss", 8)] : List (String × Nat)).map (·.1), exModel.cls n ≠ some .settable) := by
  intro n hn
  simp only [exModel]
  split_ifs <;> simp

/-- **C101 (models), refuted for methods.**  A method of a model can be replaced: `model.compile = x` is accepted, and `model.compile` is then `x`. -/
theorem C101_method_refuted : ∃ (o o' : Obj Nat), attach exCheck exModel [("PowerLaw", 7)] = .ok o ∧ setModel ["PowerLaw"] exCheck o "compile" 9 = .ok o' ∧ o'.get "compile" = some 9 :=
  ⟨_, _, rfl, rfl, rfl⟩

/-- A component with the parameter `K`. -/
def exComp : Obj Nat := ⟨fun k => if k = "K" then some .settable else if k = "name" then some (.readOnly 2) else none, [], [("K", 5)], true⟩

example : ([Op.set "K" 10, .set "k" 11, .del "K", .set "name" 3, .set "K" 200].foldl (stepWith (setComponent exCheck)) exComp).get "K" = some 11 := by rfl

/-! ## Class definitions -/

/-- **C101 (refused class definitions).**  An empty tuple and a tuple with anything but `ParamConfig`s are a `ValueError`; a proper tuple with a method that is not static
is a `TypeError`. -/
theorem C101_define_errors {C : Type} (static : String → Bool) (methods : List String) (es : List (Option C)) :
    (es = [] ∨ none ∈ es → define static methods (.tuple es) = .error .valueError) ∧
    (es ≠ [] → none ∉ es → (∃ m ∈ methods, static m = false) → define static methods (.tuple es) = .error .typeError) := by
  constructor
  · rintro (rfl | h)
    · rfl
    · have : es.any Option.isNone = true := List.any_eq_true.2 ⟨none, h, rfl⟩
      simp only [define, this, if_true]
      split_ifs <;> rfl
  · intro h1 h2 ⟨m, hm, hs⟩
    have e1 : es.isEmpty = false := by simpa using h1
    have e2 : es.any Option.isNone = false := by
      rw [List.any_eq_false]
      intro x hx hn
      cases x with
      | none => exact h2 hx
      | some c => cases hn
    have e3 : methods.any (fun m => !static m) = true := List.any_eq_true.2 ⟨m, hm, by simp [hs]⟩
    simp only [define, e1, e2, e3, Bool.false_eq_true, if_false, if_true]

example : define (C := Nat) (fun m => m == "eval") ["eval", "integral"] (.tuple [some 1]) = .error .typeError := by rfl

/-- **C101 (class definitions), partial.**  A class body with a tuple of parameter declarations is accepted exactly if the tuple is not empty, all its entries are `ParamConfig`s and all
methods that have to be static are; the class then has exactly the declared parameters.  Missing: configurations that are not tuples, see `C101_define_refuted`. -/
theorem C101_define_partial {C : Type} (static : String → Bool) (methods : List String) (es : List (Option C)) :
    ((∃ r, define static methods (.tuple es) = .ok r) ↔ es ≠ [] ∧ (∀ e ∈ es, e ≠ none) ∧ ∀ m ∈ methods, static m = true) ∧
    ∀ r, define static methods (.tuple es) = .ok r → ∃ cs : List C, r = some cs ∧ es = cs.map some := by
  have hmap : (∀ e ∈ es, e ≠ none) → es = (es.filterMap id).map some := by
    intro h
    induction es with
    | nil => rfl
    | cons a l ih =>
      cases a with
      | none => exact absurd rfl (h none (by simp))
      | some c => simpa using ih fun e he => h e (List.mem_cons_of_mem _ he)
  simp only [define]
  by_cases h1 : es.isEmpty = true
  · rw [if_pos h1]
    have : es = [] := List.isEmpty_iff.1 h1
    constructor
    · constructor
      · rintro ⟨r, hr⟩; cases hr
      · rintro ⟨h, -⟩; exact absurd this h
    · intro r hr; cases hr
  · rw [if_neg h1]
    have h1' : es ≠ [] := fun h => h1 (List.isEmpty_iff.2 h)
    by_cases h2 : es.any Option.isNone = true
    · rw [if_pos h2]
      constructor
      · constructor
        · rintro ⟨r, hr⟩; cases hr
        · rintro ⟨-, h, -⟩
          obtain ⟨e, he, hn⟩ := List.any_eq_true.1 h2
          exact absurd (Option.isNone_iff_eq_none.1 hn) (h e he)
      · intro r hr; cases hr
    · rw [if_neg h2]
      have h2' : ∀ e ∈ es, e ≠ none := by
        intro e he hn
        exact h2 (List.any_eq_true.2 ⟨e, he, by rw [hn]; rfl⟩)
      by_cases h3 : methods.any (fun m => !static m) = true
      · rw [if_pos h3]
        constructor
        · constructor
          · rintro ⟨r, hr⟩; cases hr
          · rintro ⟨-, -, h⟩
            obtain ⟨m, hm, hs⟩ := List.any_eq_true.1 h3
            rw [h m hm] at hs
            cases hs
        · intro r hr; cases hr
      · rw [if_neg h3]
        constructor
        · constructor
          · rintro -
            refine ⟨h1', h2', fun m hm => ?_⟩
            by_contra hs
            exact h3 (List.any_eq_true.2 ⟨m, hm, by simpa using hs⟩)
          · intro _; exact ⟨_, rfl⟩
        · intro r hr
          cases hr
          exact ⟨_, rfl, hmap h2'⟩

example : define (C := Nat) (fun _ => true) ["integral"] (.tuple [some 1, some 2]) = .ok (some [1, 2]) := by rfl
example : define (C := Nat) (fun _ => false) ["integral"] (.tuple [some 1, some 2]) = .error .typeError := by rfl

/-- **C101 (class definitions), refuted for lists.**  A list of declarations is accepted like a tuple, but the class gets no parameters: the attributes are never made into
parameters. -/
theorem C101_define_refuted {C : Type} (static : String → Bool) (methods : List String) (h : ∀ m ∈ methods, static m = true) :
    define (C := C) static methods .other = .ok (some []) := by
  simp only [define]
  rw [if_neg]
  intro hh
  obtain ⟨m, hm, hs⟩ := List.any_eq_true.1 hh
  rw [h m hm] at hs
  cases hs

example := C101_delete exComp rfl "K"
example := C101_component exCheck exComp rfl [.set "K" 10, .del "K", .set "name" 3]
example := C101_define_refuted (C := Nat) (fun _ => true) ["integral"] (by simp)

end Elisa.Models.Protect
