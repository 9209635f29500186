import Verif.Util.ReplaceStr
import Verif.Models.ModelLabelProps

namespace Elisa.Util.Replace

open Elisa.Models.Algebra (replaceAll replaceAll_word)

/-- Every string in a value, keys of dictionaries included. -/
inductive Occurs : List Char → Val → Prop where
  | str (s) : Occurs s (.str s)
  | seq {s t x xs} : x ∈ xs → Occurs s x → Occurs s (.seq t xs)
  | key {s k v es} : (k, v) ∈ es → Occurs s k → Occurs s (.dict es)
  | value {s k v es} : (k, v) ∈ es → Occurs s v → Occurs s (.dict es)

mutual
/-- The equality of the model is equality. -/
theorem Val.same_iff : ∀ a b : Val, a.same b = true ↔ a = b
  | .str s, b => by cases b <;> simp [Val.same]
  | .other n, b => by cases b <;> simp [Val.same]
  | .seq t xs, b => by cases b <;> simp [Val.same, sameList_iff xs]
  | .dict es, b => by cases b <;> simp [Val.same, sameEntries_iff es]
theorem sameList_iff : ∀ xs ys : List Val, sameList xs ys = true ↔ xs = ys
  | [], ys => by cases ys <;> simp [sameList]
  | x :: xs, ys => by cases ys <;> simp [sameList, Val.same_iff x, sameList_iff xs]
theorem sameEntries_iff : ∀ xs ys : List (Val × Val), sameEntries xs ys = true ↔ xs = ys
  | [], ys => by cases ys <;> simp [sameEntries]
  | (k, v) :: xs, ys => by
    cases ys with
    | nil => simp [sameEntries]
    | cons y ys => obtain ⟨l, w⟩ := y; simp [sameEntries, Val.same_iff k, Val.same_iff v, sameEntries_iff xs, and_assoc]
end
theorem same_false (a b : Val) : a.same b = false ↔ a ≠ b := by rw [← Bool.not_eq_true, Val.same_iff]

/-- No dictionary in the value has two equal keys. -/
inductive Proper : Val → Prop where
  | str (s) : Proper (.str s)
  | other (n) : Proper (.other n)
  | seq {t xs} : (∀ x ∈ xs, Proper x) → Proper (.seq t xs)
  | dict {es} : (∀ e ∈ es, Proper e.1) → (∀ e ∈ es, Proper e.2) → (es.map Prod.fst).Nodup → Proper (.dict es)

/-! ## One key -/

theorem infix_cons {k p : List Char} {c : Char} (h : k <:+: c :: p) : k <+: c :: p ∨ k <:+: p := by
  rwa [List.infix_cons_iff] at h

theorem replaceAll_pieces {k : List Char} (v : List Char) (hk : k ≠ []) : ∀ (n : ℕ) (s : List Char), s.length ≤ n →
    ∃ p ps, s = k.intercalate (p :: ps) ∧ replaceAll k v 0 s = v.intercalate (p :: ps) ∧ ∀ q ∈ p :: ps, ¬ k <:+: q
  | _, [], _ => ⟨[], [], by simp [List.intercalate], by simp [replaceAll, List.intercalate], by simpa using hk⟩
  | 0, _ :: _, h => by simp at h
  | n + 1, c :: cs, h => by
    by_cases hp : k <+: c :: cs
    · obtain ⟨rest, hr⟩ := hp
      have hl : rest.length ≤ n := by
        have := congrArg List.length hr
        have := List.length_pos_iff.2 hk
        simp at *; omega
      obtain ⟨p, ps, h1, h2, h3⟩ := replaceAll_pieces v hk n rest hl
      refine ⟨[], p :: ps, ?_, ?_, ?_⟩
      · rw [← hr, h1]; simp [List.intercalate, List.intersperse]
      · rw [← hr, replaceAll_word _ _ _ hk, h2]; simp [List.intercalate, List.intersperse]
      · intro q hq
        rcases List.mem_cons.1 hq with rfl | hq
        · simpa using hk
        · exact h3 q hq
    · obtain ⟨p, ps, h1, h2, h3⟩ := replaceAll_pieces v hk n cs (by simpa using h)
      have key : ∀ w : List Char, w.intercalate ((c :: p) :: ps) = c :: w.intercalate (p :: ps) := by
        intro w; cases ps <;> simp [List.intercalate, List.intersperse]
      have pre : ∀ w : List Char, p <+: w.intercalate (p :: ps) := by
        intro w; cases ps <;> simp [List.intercalate, List.intersperse]
      refine ⟨c :: p, ps, by rw [key, ← h1], ?_, ?_⟩
      · rw [key, ← h2, replaceAll, if_neg (by simpa using hp)]
      · intro q hq
        rcases List.mem_cons.1 hq with rfl | hq
        · intro hi
          rcases infix_cons hi with hi | hi
          · apply hp
            refine hi.trans ?_
            rw [List.prefix_cons_inj, h1]
            exact pre k
          · exact h3 p (by simp) hi
        · exact h3 q (List.mem_cons_of_mem _ hq)

/-- **C161 (one key).** With one, non-empty key every string is cut at non-overlapping occurrences of the key into pieces free of it, which are joined with the replacement. -/
theorem C161_one (k v s : List Char) (hk : k ≠ []) :
    ∃ pieces : List (List Char), pieces ≠ [] ∧ s = k.intercalate pieces ∧ (Val.str s).replace [(k, v)] = .str (v.intercalate pieces) ∧ ∀ q ∈ pieces, ¬ k <:+: q := by
  obtain ⟨p, ps, h1, h2, h3⟩ := replaceAll_pieces v hk s.length s le_rfl
  refine ⟨p :: ps, by simp, h1, ?_, h3⟩
  simp [Val.replace, replaceText, strReplace, hk, h2]

theorem intercalate_tail (v : List Char) : ∀ s : List Char, v.intercalate (s.map (fun c => [c]) ++ [[]]) = s.flatMap fun c => c :: v
  | [] => by simp [List.intercalate]
  | c :: cs => by
    have ih := intercalate_tail v cs
    cases cs with
    | nil => simp [List.intercalate, List.intersperse]
    | cons d ds =>
      simp only [List.intercalate, List.map_cons, List.cons_append, List.intersperse, List.flatten_cons, List.flatMap_cons, List.singleton_append] at ih ⊢
      rw [ih]
      simp

/-- **C161 (empty key).** An empty key is found between any two characters, at the start and at the end. -/
theorem C161_empty (v s : List Char) : (Val.str s).replace [([], v)] = .str (v.intercalate ([] :: (s.map (fun c => [c]) ++ [[]]))) := by
  have e : v.intercalate ([] :: (s.map (fun c => [c]) ++ [[]])) = v ++ v.intercalate (s.map (fun c => [c]) ++ [[]]) := by
    cases s <;> simp [List.intercalate, List.intersperse]
  rw [e, intercalate_tail]
  simp [Val.replace, replaceText, strReplace]

example : (Val.str ['a', 'b']).replace [([], ['-'])] = .str "-a-b-".toList := C161_empty _ _

/-! ## Keys of one character -/

/-- The replacement of a character. -/
def charImage (mapping : List (Char × List Char)) (c : Char) : List Char := ((mapping.find? fun kv => kv.1 == c).map Prod.snd).getD [c]

theorem replaceAll_char (k : Char) (v : List Char) : ∀ s, replaceAll [k] v 0 s = s.flatMap fun c => if c = k then v else [c]
  | [] => rfl
  | c :: cs => by
    rw [replaceAll, List.flatMap_cons, ← replaceAll_char k v cs]
    by_cases h : c = k
    · subst h; simp
    · rw [if_neg (by simpa using Ne.symm h), if_neg h]; rfl

theorem flatMap_same {f : Char → List Char} : ∀ {v : List Char}, (∀ x ∈ v, f x = [x]) → v.flatMap f = v
  | [], _ => rfl
  | y :: ys, h => by
    rw [List.flatMap_cons, h y List.mem_cons_self, flatMap_same fun x hx => h x (List.mem_cons_of_mem _ hx)]
    rfl

theorem replaceText_chars : ∀ (m : List (Char × List Char)) (s : List Char), (m.map Prod.fst).Nodup → (∀ kv ∈ m, ∀ c ∈ kv.2, c ∉ m.map Prod.fst) →
    replaceText (m.map fun kv => ([kv.1], kv.2)) s = s.flatMap (charImage m)
  | [], s, _, _ => by simp only [List.map_nil, replaceText, List.foldl_nil]; rw [show charImage [] = fun c => [c] from rfl]; simp
  | (k, v) :: m, s, hn, hv => by
    have ih := replaceText_chars m
    rw [List.map_cons, List.nodup_cons] at hn
    have hv' : ∀ kv ∈ m, ∀ c ∈ kv.2, c ∉ m.map Prod.fst := fun kv h c hc hm => hv kv (List.mem_cons_of_mem _ h) c hc (by simp only [List.map_cons, List.mem_cons]; exact .inr hm)
    have e : replaceText (((k, v) :: m).map fun kv => ([kv.1], kv.2)) s = replaceText (m.map fun kv => ([kv.1], kv.2)) (replaceAll [k] v 0 s) := by
      simp [replaceText, strReplace]
    rw [e, ih _ hn.2 hv', replaceAll_char, List.flatMap_assoc]
    congr 1
    funext c
    by_cases h : c = k
    · subst h
      rw [if_pos rfl]
      have hc : charImage ((c, v) :: m) c = v := by simp [charImage]
      rw [hc]
      have : ∀ x ∈ v, charImage m x = [x] := by
        intro x hx
        have hx' := hv (c, v) (by simp) x hx
        have : m.find? (fun kv => kv.1 == x) = none := by
          rw [List.find?_eq_none]
          intro kv hkv hb
          apply hx'
          simp only [List.map_cons, List.mem_cons]
          exact .inr (List.mem_map.2 ⟨kv, hkv, by simpa using hb⟩)
        simp [charImage, this]
      exact flatMap_same this
    · rw [if_neg h, List.flatMap_singleton]
      simp [charImage, Ne.symm h]

/-- **C161 (all at once).** If the keys are different characters that occur in no replacement, then every character is replaced once, as if all replacements were made at the same
time.  What is missing: replacements that contain keys, see the counterexample below, and longer keys. -/
theorem C161_text_partial (m : List (Char × List Char)) (s : List Char) (hn : (m.map Prod.fst).Nodup) (hv : ∀ kv ∈ m, ∀ c ∈ kv.2, c ∉ m.map Prod.fst) :
    (Val.str s).replace (m.map fun kv => ([kv.1], kv.2)) = .str (s.flatMap (charImage m)) := by
  rw [Val.replace, replaceText_chars m s hn hv]

example : (Val.str "cab".toList).replace [("a".toList, "xy".toList), ("b".toList, "z".toList)] = .str "cxyz".toList :=
  C161_text_partial [('a', "xy".toList), ('b', "z".toList)] "cab".toList (by decide) (by decide)

/-- **C161 (all at once) fails.**  The replacements are made one after the other: with a to b and b to c, the string "ab" becomes "cc" instead of "bc". -/
theorem C161_text_refuted : (Val.str ['a', 'b']).replace [(['a'], ['b']), (['b'], ['c'])] = .str ['c', 'c'] ∧
    ['a', 'b'].flatMap (charImage [('a', ['b']), ('b', ['c'])]) = ['b', 'c'] := by
  constructor
  · simp [Val.replace, replaceText, strReplace, replaceAll]
  · decide

/-! ## Containers -/

theorem replaceItems_eq (m) : ∀ xs, replaceItems m xs = xs.map (Val.replace m)
  | [] => by simp [replaceItems]
  | x :: xs => by rw [replaceItems, replaceItems_eq m xs, List.map_cons]

/-- **C161 (lists).** Lists stay lists and tuples tuples, of the same length, and every element is replaced; other objects are returned as they are. -/
theorem C161_lists (m) (t : Bool) (xs : List Val) (n : ℕ) : (Val.seq t xs).replace m = .seq t (xs.map (Val.replace m)) ∧ (Val.other n).replace m = .other n := by
  rw [Val.replace, Val.replace, replaceItems_eq]
  exact ⟨rfl, rfl⟩

theorem setEntry_new {k v : Val} : ∀ {es : List (Val × Val)}, (∀ e ∈ es, e.1.same k = false) → setEntry k v es = es ++ [(k, v)]
  | [], _ => rfl
  | (l, w) :: es, h => by
    rw [setEntry, if_neg (by simpa using h _ List.mem_cons_self), setEntry_new fun e he => h e (List.mem_cons_of_mem _ he)]
    rfl

theorem replaceEntries_eq (m) : ∀ (es done : List (Val × Val)), (done ++ es.map fun e => (e.1.replace m, e.2.replace m)).Pairwise (fun a b => a.1.same b.1 = false) →
    replaceEntries m done es = done ++ es.map fun e => (e.1.replace m, e.2.replace m)
  | [], done, _ => by simp [replaceEntries]
  | (k, v) :: es, done, h => by
    have hd : ∀ e ∈ done, e.1.same (k.replace m) = false := fun e he => (List.pairwise_append.1 h).2.2 e he (k.replace m, v.replace m) (by simp)
    rw [replaceEntries, setEntry_new hd, replaceEntries_eq m es _ (by simpa using h)]
    simp

/-- **C161 (dictionaries).** If the replaced keys of a dictionary are different, it keeps its entries in their order, with keys and values replaced.  What is missing: keys that
become equal, see the counterexample below. -/
theorem C161_dict_partial (m) (es : List (Val × Val)) (h : (es.map fun e => e.1.replace m).Nodup) :
    (Val.dict es).replace m = .dict (es.map fun e => (e.1.replace m, e.2.replace m)) := by
  rw [Val.replace, replaceEntries_eq m es []]
  · rfl
  · rw [List.nil_append, List.pairwise_map]
    rw [List.Nodup, List.pairwise_map] at h
    exact h.imp fun hne => (same_false _ _).2 hne

/-- **C161 (dictionaries) fails for keys that become equal.**  Replacing a by b in a dictionary with the keys "a" and "b" gives one entry: the value of "a" is lost. -/
theorem C161_dict_refuted : (Val.dict [(.str ['a'], .other 1), (.str ['b'], .other 2)]).replace [(['a'], ['b'])] = .dict [(.str ['b'], .other 2)] := by
  simp [Val.replace, replaceEntries, setEntry, replaceText, strReplace, replaceAll, Val.same]

theorem setEntry_mem (k v : Val) : ∀ (es : List (Val × Val)), (es.map Prod.fst).Nodup → ((setEntry k v es).map Prod.fst).Nodup ∧
    (∀ l w, (l, w) ∈ setEntry k v es ↔ (l = k ∧ w = v) ∨ (l ≠ k ∧ (l, w) ∈ es))
  | [], _ => by simp [setEntry]
  | (l0, w0) :: es, h => by
    rw [List.map_cons, List.nodup_cons] at h
    obtain ⟨h1, h2⟩ := setEntry_mem k v es h.2
    rw [setEntry]
    by_cases hs : l0 = k
    · subst hs
      rw [if_pos ((Val.same_iff _ _).2 rfl)]
      refine ⟨by simpa using h, fun l w => ?_⟩
      have hno : ∀ w, (l0, w) ∉ es := fun w hw => h.1 (List.mem_map.2 ⟨_, hw, rfl⟩)
      by_cases hl : l = l0
      · subst hl; simp [hno]
      · simp [hl]
    · rw [if_neg (fun hc => hs ((Val.same_iff _ _).1 hc))]
      refine ⟨?_, fun l w => ?_⟩
      · rw [List.map_cons, List.nodup_cons]
        refine ⟨fun hm => ?_, h1⟩
        obtain ⟨⟨l, w⟩, hm', e⟩ := List.mem_map.1 hm
        dsimp only at e
        subst e
        rcases (h2 _ _).1 hm' with ⟨e, -⟩ | ⟨-, hm''⟩
        · exact hs e
        · exact h.1 (List.mem_map.2 ⟨_, hm'', rfl⟩)
      · rw [List.mem_cons, h2, List.mem_cons, Prod.mk.injEq]
        constructor
        · rintro (⟨rfl, rfl⟩ | h | h)
          · exact .inr ⟨hs, .inl ⟨rfl, rfl⟩⟩
          · exact .inl h
          · exact .inr ⟨h.1, .inr h.2⟩
        · rintro (h | ⟨h, ⟨rfl, rfl⟩ | h'⟩)
          · exact .inr (.inl h)
          · exact .inl ⟨rfl, rfl⟩
          · exact .inr (.inr ⟨h, h'⟩)

/-- An entry of a list of entries after which the same key is not written again. -/
def Last (es : List (Val × Val)) (l w : Val) : Prop := ∃ pre post, es = pre ++ (l, w) :: post ∧ ∀ e ∈ post, e.1 ≠ l

theorem last_cons {k v l w : Val} {es : List (Val × Val)} : Last ((k, v) :: es) l w ↔ Last es l w ∨ (k = l ∧ v = w ∧ ∀ e ∈ es, e.1 ≠ l) := by
  constructor
  · rintro ⟨pre, post, e, h⟩
    cases pre with
    | nil => obtain ⟨e1, e2⟩ := List.cons.inj e; obtain ⟨rfl, rfl⟩ := Prod.mk.inj e1; subst e2; exact .inr ⟨rfl, rfl, h⟩
    | cons p pre => obtain ⟨-, e2⟩ := List.cons.inj e; exact .inl ⟨pre, post, e2, h⟩
  · rintro (⟨pre, post, rfl, h⟩ | ⟨rfl, rfl, h⟩)
    · exact ⟨(k, v) :: pre, post, rfl, h⟩
    · exact ⟨[], es, rfl, h⟩

theorem replaceEntries_mem (m) : ∀ (es done : List (Val × Val)), (done.map Prod.fst).Nodup → ((replaceEntries m done es).map Prod.fst).Nodup ∧
    ∀ l w, (l, w) ∈ replaceEntries m done es ↔ Last (es.map fun e => (e.1.replace m, e.2.replace m)) l w ∨ ((∀ e ∈ es, e.1.replace m ≠ l) ∧ (l, w) ∈ done)
  | [], done, h => by
    refine ⟨by simpa [replaceEntries] using h, fun l w => ?_⟩
    simp [replaceEntries, Last]
  | (k, v) :: es, done, h => by
    obtain ⟨s1, s2⟩ := setEntry_mem (k.replace m) (v.replace m) done h
    obtain ⟨r1, r2⟩ := replaceEntries_mem m es _ s1
    rw [replaceEntries]
    refine ⟨r1, fun l w => ?_⟩
    rw [r2, s2, List.map_cons, last_cons]
    constructor
    · rintro (h | ⟨h, ⟨rfl, rfl⟩ | ⟨h1, h2⟩⟩)
      · exact .inl (.inl h)
      · refine .inl (.inr ⟨rfl, rfl, ?_⟩)
        intro e he
        obtain ⟨e', he', rfl⟩ := List.mem_map.1 he
        exact h e' he'
      · refine .inr ⟨?_, h2⟩
        intro e he
        rcases List.mem_cons.1 he with rfl | he
        · exact Ne.symm h1
        · exact h e he
    · rintro ((h | ⟨rfl, rfl, h⟩) | ⟨h, h2⟩)
      · exact .inl h
      · exact .inr ⟨fun e he => h _ (List.mem_map.2 ⟨e, he, rfl⟩), .inl ⟨rfl, rfl⟩⟩
      · exact .inr ⟨fun e he => h e (List.mem_cons_of_mem _ he), .inr ⟨Ne.symm (h _ List.mem_cons_self), h2⟩⟩

/-- **C161 (values of dictionaries).** Whatever the keys become: the replaced dictionary has no key twice, and under each replaced key it has the replaced value of the last entry with that
replaced key. -/
theorem C161_last (m) (es : List (Val × Val)) : ∃ out, (Val.dict es).replace m = .dict out ∧ (out.map Prod.fst).Nodup ∧
    ∀ l w, (l, w) ∈ out ↔ ∃ pre k v post, es = pre ++ (k, v) :: post ∧ l = k.replace m ∧ w = v.replace m ∧ ∀ e ∈ post, e.1.replace m ≠ l := by
  obtain ⟨r1, r2⟩ := replaceEntries_mem m es [] (by simp)
  refine ⟨_, by rw [Val.replace], r1, fun l w => ?_⟩
  rw [r2]
  simp only [List.not_mem_nil, and_false, or_false]
  constructor
  · rintro ⟨pre, post, e, h⟩
    obtain ⟨pre', rest, rfl, rfl, e2⟩ := List.map_eq_append_iff.1 e
    obtain ⟨⟨k, v⟩, post', rfl, e3, rfl⟩ := List.map_eq_cons_iff.1 e2
    obtain ⟨rfl, rfl⟩ := Prod.mk.inj e3
    exact ⟨pre', k, v, post', rfl, rfl, rfl, fun e he => h _ (List.mem_map.2 ⟨e, he, rfl⟩)⟩
  · rintro ⟨pre, k, v, post, rfl, rfl, rfl, h⟩
    refine ⟨pre.map fun e => (e.1.replace m, e.2.replace m), post.map fun e => (e.1.replace m, e.2.replace m), by simp, ?_⟩
    intro e he
    obtain ⟨e', he', rfl⟩ := List.mem_map.1 he
    exact h e' he'

example := C161_last [(['a'], ['b'])] [(.str ['a'], .other 1), (.str ['b'], .other 2)]

/-! ## Strings without keys -/

theorem replaceAll_absent (k v : List Char) : ∀ s, ¬ k <:+: s → replaceAll k v 0 s = s
  | [], _ => rfl
  | c :: cs, h => by
    rw [List.infix_cons_iff, not_or] at h
    rw [replaceAll, if_neg (by simpa using h.1), replaceAll_absent k v cs h.2]

theorem replaceText_absent : ∀ (m : List (List Char × List Char)) (s : List Char), (∀ kv ∈ m, ¬ kv.1 <:+: s) → replaceText m s = s
  | [], _, _ => rfl
  | (k, v) :: m, s, h => by
    have h1 := h _ List.mem_cons_self
    have hk : k ≠ [] := by rintro rfl; exact h1 (List.nil_infix)
    have e : replaceText ((k, v) :: m) s = replaceText m (replaceAll k v 0 s) := by simp [replaceText, strReplace, hk]
    rw [e, replaceAll_absent _ _ _ h1, replaceText_absent m s fun kv hkv => h kv (List.mem_cons_of_mem _ hkv)]

/-- **C161 (absent keys).** A value none of whose strings, at any depth, contains a key is returned as it is. -/
theorem C161_absent (m : List (List Char × List Char)) (x : Val) (hx : Proper x) (h : ∀ s, Occurs s x → ∀ kv ∈ m, ¬ kv.1 <:+: s) : x.replace m = x := by
  induction hx with
  | str s => rw [Val.replace, replaceText_absent m s (h s (.str s))]
  | other n => rw [Val.replace]
  | @seq t xs _ ih =>
    rw [(C161_lists m t xs 0).1, List.map_congr_left (g := id) fun x hx => ih x hx fun s hs => h s (.seq hx hs), List.map_id]
  | @dict es _ _ hd ih1 ih2 =>
    have key : ∀ e ∈ es, e.1.replace m = e.1 ∧ e.2.replace m = e.2 := fun e he => ⟨ih1 e he fun s hs => h s (.key he hs), ih2 e he fun s hs => h s (.value he hs)⟩
    rw [C161_dict_partial m es]
    · rw [List.map_congr_left (g := id) fun e he => by rw [(key e he).1, (key e he).2]; rfl, List.map_id]
    · rw [List.map_congr_left (g := Prod.fst) fun e he => (key e he).1]
      exact hd

example := C161_one ['a'] ['b'] "banana".toList (by simp)
example := C161_dict_partial [(['a'], ['b'])] [(.str ['a'], .other 1), (.str ['c'], .str ['a'])] (by
    simp [Val.replace, replaceText, strReplace, replaceAll])
example : (Val.dict [(.str ['c'], .other 1)]).replace [(['a'], ['b'])] = .dict [(.str ['c'], .other 1)] :=
  C161_absent _ _ (.dict (by intro e he; simp only [List.mem_singleton] at he; subst he; exact .str _) (by intro e he; simp only [List.mem_singleton] at he; subst he; exact .other _) (by simp)) (by
    intro s hs kv hkv
    simp only [List.mem_singleton] at hkv
    subst hkv
    cases hs with
    | key hm ho => simp only [List.mem_singleton, Prod.mk.injEq] at hm; obtain ⟨rfl, rfl⟩ := hm; cases ho; decide
    | value hm ho => simp only [List.mem_singleton, Prod.mk.injEq] at hm; obtain ⟨rfl, rfl⟩ := hm; cases ho)

end Elisa.Util.Replace
