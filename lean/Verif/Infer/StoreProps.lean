import Verif.Infer.Store
import Mathlib.Tactic

/-!
# C102: saved results are loaded as they were saved
-/

namespace Elisa.Infer.Store

open Elisa

variable {R : Type}

/-- The words accepted as `compress` and `decompress`. -/
def Supported (s : String) : Prop := s = "gzip" ∨ s = "bz2" ∨ s = "lzma"

theorem algOf_ok (s : String) : (∃ a, algOf s = .ok a) ↔ Supported s := by
  unfold algOf Supported
  split_ifs <;> simp_all

theorem algOf_inj {s t : String} {a : Alg} (hs : algOf s = .ok a) (ht : algOf t = .ok a) : s = t := by
  unfold algOf at hs ht
  split_ifs at hs with h1 h2 h3 <;> split_ifs at ht with g1 g2 g3 <;> cases hs <;> cases ht <;> simp_all

theorem algOf_error {s : String} (h : ¬ Supported s) : algOf s = .error .valueError := by
  unfold Supported at h
  push Not at h
  unfold algOf
  rw [if_neg h.1, if_neg h.2.1, if_neg h.2.2]

/-- `e` is the last save of the history to this path that was not refused. -/
def LastSave (hist : List (Event R)) (path : String) (e : Event R) : Prop :=
  ∃ before after, hist = before ++ e :: after ∧ e.path = path ∧ Supported e.compress ∧ ∀ e' ∈ after, e'.path = path → ¬ Supported e'.compress

theorem after_append (c : Codec R) (d : Disk) (l l' : List (Event R)) : after c d (l ++ l') = after c (after c d l) l' := by
  induction l generalizing d with
  | nil => rfl
  | cons e l ih =>
    simp only [List.cons_append, after]
    cases save c d e.path e.compress e.result e.cut with
    | ok d' => exact ih d'
    | error _ => exact ih d

theorem after_other (c : Codec R) (d : Disk) (l : List (Event R)) (path : String) (h : ∀ e ∈ l, e.path = path → ¬ Supported e.compress) : after c d l path = d path := by
  induction l generalizing d with
  | nil => rfl
  | cons e l ih =>
    have hl := fun d => ih d fun e' he => h e' (List.mem_cons_of_mem _ he)
    simp only [after, save]
    cases ha : algOf e.compress with
    | error _ => exact hl d
    | ok a =>
      dsimp only
      rw [hl]
      have hne : path ≠ e.path := fun hp => h e (by simp) hp.symm ((algOf_ok _).1 ⟨a, ha⟩)
      exact Function.update_of_ne hne _ _

theorem after_last (c : Codec R) (d : Disk) (hist : List (Event R)) (path : String) (e : Event R) (h : LastSave hist path e) :
    ∃ a, algOf e.compress = .ok a ∧ after c d hist path = some (c.written a e.result e.cut) := by
  obtain ⟨b, l, rfl, hp, hs, hl⟩ := h
  obtain ⟨a, ha⟩ := (algOf_ok _).2 hs
  refine ⟨a, ha, ?_⟩
  rw [after_append]
  simp only [after, save, ha]
  rw [after_other c _ l path hl, hp, Function.update_self]

theorem magic_conflict {a a' : Alg} {x : List UInt8} (h : magic a <+: magic a' ++ x) : a = a' := by
  cases a <;> cases a' <;> first | rfl | (obtain ⟨t, ht⟩ := h; simp [magic] at ht)

theorem load_file (c : Codec R) (d : Disk) (path word : String) (a : Alg) (ha : algOf word = .ok a) (x : R) (h : d path = some (c.file a x)) : load c d path word = .ok x := by
  unfold load
  rw [ha]
  dsimp only
  rw [h]
  dsimp only
  have hp : (magic a).isPrefixOf (c.file a x) = true := by
    rw [List.isPrefixOf_iff_prefix]
    exact List.prefix_append _ _
  rw [if_pos hp]
  have : (c.file a x).drop (magic a).length = c.body a x ++ [] := by
    unfold Codec.file
    rw [List.drop_left, List.append_nil]
  rw [this, c.reads]

/-- **C102 (saved and loaded).**  After any history of saves to any files, complete or cut off: if the last save to a file was complete, loading it with the same algorithm
gives the result that was saved, and with another algorithm an exception. -/
theorem C102_loaded (c : Codec R) (d : Disk) (hist : List (Event R)) (path : String) (e : Event R) (h : LastSave hist path e) (hc : e.cut = none) :
    load c (after c d hist) path e.compress = .ok e.result ∧
    ∀ word, word ≠ e.compress → ∃ err, load c (after c d hist) path word = .error err := by
  obtain ⟨a, ha, hd⟩ := after_last c d hist path e h
  rw [hc] at hd
  refine ⟨load_file c _ path _ a ha _ hd, ?_⟩
  intro word hw
  unfold load
  cases hword : algOf word with
  | error err => exact ⟨err, rfl⟩
  | ok a' =>
    have hne : a' ≠ a := fun he => hw (algOf_inj (by rw [hword, he]) ha)
    dsimp only
    rw [hd]
    dsimp only
    rw [if_neg]
    · exact ⟨_, rfl⟩
    · intro hp
      rw [List.isPrefixOf_iff_prefix] at hp
      exact hne (magic_conflict hp)

/-- **C102 (refused).**  A save or load with an algorithm that is not offered raises `ValueError`; such a save changes no file. -/
theorem C102_refused (c : Codec R) (d : Disk) (path word : String) (x : R) (cut : Option Nat) (h : ¬ Supported word) :
    save c d path word x cut = .error .valueError ∧ load c d path word = .error .valueError ∧ after c d [⟨path, word, x, cut⟩] = d := by
  have := algOf_error h
  refine ⟨?_, ?_, ?_⟩
  · simp only [save, this]
  · simp only [load, this]
  · simp only [after, save, this]

/-- **C102 (other files).**  Saving to a file changes no other file. -/
theorem C102_others (c : Codec R) (d : Disk) (hist : List (Event R)) (path : String) (h : ∀ e ∈ hist, e.path ≠ path) (word : String) :
    load c (after c d hist) path word = load c d path word := by
  have : after c d hist path = d path := after_other c d hist path fun e he hp => absurd hp (h e he)
  unfold load
  rw [this]

/-- **C102 (interrupted), partial.**  If the last save to a file was cut off at any point, loading the file (with any algorithm) gives the result of this save or an exception, never
another result and never one that was saved before.  Missing: that the result saved before is still there, see `C102_interrupted_refuted`. -/
theorem C102_interrupted_partial (c : Codec R) (hpre : ∀ a x y, c.body a x <+: c.body a y → x = y) (d : Disk) (hist : List (Event R)) (path : String) (e : Event R)
    (h : LastSave hist path e) (word : String) (x : R) (hx : load c (after c d hist) path word = .ok x) : x = e.result ∧ word = e.compress := by
  obtain ⟨a, ha, hd⟩ := after_last c d hist path e h
  have hpart : ∃ bytes, after c d hist path = some bytes ∧ bytes <+: c.file a e.result := by
    refine ⟨_, hd, ?_⟩
    cases e.cut with
    | none => exact List.prefix_rfl
    | some k => exact List.take_prefix k _
  obtain ⟨bytes, hb, hpb⟩ := hpart
  unfold load at hx
  cases hword : algOf word with
  | error err => rw [hword] at hx; cases hx
  | ok a' =>
    rw [hword] at hx
    dsimp only at hx
    rw [hb] at hx
    dsimp only at hx
    split at hx
    · rename_i hp
      rw [List.isPrefixOf_iff_prefix] at hp
      have he : a' = a := magic_conflict (hp.trans hpb)
      subst he
      refine ⟨?_, algOf_inj hword ha⟩
      cases hq : c.parse a' (bytes.drop (magic a').length) with
      | none => rw [hq] at hx; cases hx
      | some y =>
        rw [hq] at hx
        cases hx
        have h1 := c.sequential _ _ _ hq
        have h2 : bytes.drop (magic a').length <+: c.body a' e.result := by
          obtain ⟨t, ht⟩ := hp
          rw [← ht, List.drop_left]
          rw [← ht] at hpb
          unfold Codec.file at hpb
          exact (List.prefix_append_right_inj _).1 hpb
        exact hpre _ _ _ (h1.trans h2)
    · cases hx

/-- **C102 (interrupted), refuted.**  Saving over an existing file destroys it before anything is written: if the save is cut off at once (pickling raises, say), the result saved
before can no longer be loaded, whatever the results. -/
theorem C102_interrupted_refuted (c : Codec R) (d : Disk) (path : String) (x y : R) (hist : List (Event R)) :
    load c (after c d (hist ++ [⟨path, "gzip", x, none⟩])) path "gzip" = .ok x ∧
    ∃ err, load c (after c d (hist ++ [⟨path, "gzip", x, none⟩] ++ [⟨path, "gzip", y, some 0⟩])) path "gzip" = .error err := by
  have hg : algOf "gzip" = .ok .gzip := rfl
  constructor
  · have := (C102_loaded c d (hist ++ [⟨path, "gzip", x, none⟩]) path ⟨path, "gzip", x, none⟩ ⟨hist, [], rfl, rfl, Or.inl rfl, by simp⟩ rfl).1
    exact this
  · rw [after_append]
    simp only [after, save, hg, load]
    rw [Function.update_self]
    refine ⟨.runtimeError, ?_⟩
    simp [magic, Codec.written]

/-! ## Examples -/

/-- Results are numbers; a number `n` is written as `n` ones and a zero. -/
def exParse : List UInt8 → Option Nat
  | [] => none
  | b :: l => if b = 0 then some 0 else (exParse l).map (· + 1)

theorem exParse_reads (n : Nat) (rest : List UInt8) : exParse ((List.replicate n 1 ++ [0]) ++ rest) = some n := by
  induction n with
  | zero => rfl
  | succ n ih =>
    rw [List.replicate_succ]
    simp only [List.cons_append, exParse]
    rw [ih]
    rfl

theorem exParse_sequential (bytes : List UInt8) (n : Nat) (hb : ∀ b ∈ bytes, b = 0 ∨ b = 1) (h : exParse bytes = some n) : List.replicate n 1 ++ [0] <+: bytes := by
  induction bytes generalizing n with
  | nil => cases h
  | cons b l ih =>
    unfold exParse at h
    split at h
    · rename_i hz
      cases h
      subst hz
      exact ⟨l, rfl⟩
    · rename_i hz
      have hb1 : b = 1 := (hb b (by simp)).resolve_left hz
      cases hl : exParse l with
      | none => rw [hl] at h; cases h
      | some m =>
        rw [hl] at h
        cases h
        obtain ⟨t, ht⟩ := ih m (fun b hb' => hb b (List.mem_cons_of_mem _ hb')) hl
        exact ⟨t, by rw [List.replicate_succ, List.cons_append, List.cons_append, ht, hb1]⟩

/-- A codec: other bytes are refused. -/
def exCodec : Codec Nat where
  body _ n := List.replicate n 1 ++ [0]
  parse _ bytes := if ∀ b ∈ bytes.take (bytes.idxOf 0 + 1), b = 0 ∨ b = 1 then exParse (bytes.take (bytes.idxOf 0 + 1)) else none
  reads _ n rest := by
    have hi : ((List.replicate n 1 ++ [0]) ++ rest : List UInt8).idxOf 0 = n := by
      rw [List.append_assoc, List.idxOf_append_of_notMem (by simp)]
      simp
    rw [hi]
    have ht : ((List.replicate n 1 ++ [0]) ++ rest : List UInt8).take (n + 1) = List.replicate n 1 ++ [0] := by
      rw [List.take_append_of_le_length (by simp), List.take_of_length_le (by simp)]
    rw [ht, if_pos]
    · have := exParse_reads n []
      rw [List.append_nil] at this
      exact this
    · intro b hb
      rcases List.mem_append.1 hb with hb | hb
      · exact Or.inr (List.eq_of_mem_replicate hb)
      · exact Or.inl (by simpa using hb)
  sequential _ bytes n h := by
    split at h
    · rename_i hb
      exact (exParse_sequential _ n hb h).trans (List.take_prefix _ _)
    · cases h

example : load exCodec (after exCodec (fun _ => none) [⟨"a", "gzip", 3, none⟩, ⟨"b", "zip", 9, none⟩, ⟨"a", "lzma", 5, none⟩, ⟨"b", "bz2", 4, none⟩]) "a" "lzma" = .ok 5 := by decide
example : load exCodec (after exCodec (fun _ => none) [⟨"a", "gzip", 3, none⟩, ⟨"a", "lzma", 5, some 7⟩]) "a" "gzip" = .error .runtimeError := by decide
example : ∀ x y : Nat, exCodec.body .gzip x <+: exCodec.body .gzip y → x = y := by
  intro x y h
  obtain ⟨t, ht⟩ := h
  have h1 := exParse_reads x t
  have h2 := exParse_reads y []
  rw [List.append_nil] at h2
  have : exParse (exCodec.body .gzip x ++ t) = some x := h1
  rw [ht] at this
  have h3 : exParse (exCodec.body .gzip y) = some y := h2
  rw [h3] at this
  exact (Option.some.inj this).symm

/-- `C102_loaded`, `C102_refused` and `C102_others` on a disk without files. -/
example : load exCodec (after exCodec (fun _ => none) [⟨"a", "gzip", 3, none⟩, ⟨"b", "bz2", 4, none⟩]) "a" "gzip" = .ok 3 ∧
    save exCodec (fun _ => none) "a" "zip" 3 none = .error .valueError ∧
    load exCodec (after exCodec (fun _ => none) [⟨"b", "bz2", 4, none⟩]) "a" "gzip" = load exCodec (fun _ => none) "a" "gzip" :=
  ⟨(C102_loaded exCodec _ _ "a" ⟨"a", "gzip", 3, none⟩ ⟨[], [⟨"b", "bz2", 4, none⟩], rfl, rfl, by simp [Supported], by simp⟩ rfl).1,
   (C102_refused exCodec _ "a" "zip" 3 none (by simp [Supported])).1, C102_others exCodec _ _ "a" (by simp) "gzip"⟩

end Elisa.Infer.Store
