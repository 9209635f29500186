import Verif.Models.Construct

/-!
# C88: calling a component class
-/

namespace Elisa.Models.Slot

open Elisa.Models Elisa.Models.Track

/-! ## Specification -/

/-- The arguments of a call fit a signature: not too many positional ones, every keyword names an argument that is not given by position,
and every required argument is given. -/
def Fits (sig : List (String × Bool)) (pos : List Given) (kw : List (String × Given)) : Prop :=
  pos.length ≤ sig.length ∧
  (∀ n v, (n, v) ∈ kw → ∃ i r, sig[i]? = some (n, r) ∧ pos.length ≤ i) ∧
  (∀ i n, sig[i]? = some (n, true) → i < pos.length ∨ ∃ v, (n, v) ∈ kw)

/-- The value an argument receives: by position, by keyword, or `None`. -/
def Receives (pos : List Given) (kw : List (String × Given)) (i : Nat) (n : String) (v : Given) : Prop :=
  (pos[i]? = some v) ∨ (pos.length ≤ i ∧ (n, v) ∈ kw) ∨ (pos.length ≤ i ∧ (∀ v', (n, v') ∉ kw) ∧ v = .none)

/-- A given value can be put into a slot. -/
def Acceptable (cfg : Config) (g : Given) : Prop := (∃ p, g = .param p) ∨ ∃ a, Asks cfg g a ∧ a.Valid

/-- A slot holds what was given: the very parameter, or a new one with the values asked for. -/
def Holds (rnd : ℚ → ℚ) (w' : World) (c : Cid) (cfg : Config) (fresh : Pid) (g : Given) : Prop :=
  (∃ p, g = .param p ∧ w'.heap.slot c cfg.name = some p) ∨
  (w'.heap.slot c cfg.name = some fresh ∧ ∃ a u, Asks cfg g a ∧ a.Made rnd u ∧ w'.obj fresh = some ⟨some u, cfg.latex⟩)

/-! ## Lemmas -/

theorem lookup_mem {α : Type} {l : List (String × α)} {n : String} {v : α} (h : l.lookup n = some v) : (n, v) ∈ l := by
  induction l with
  | nil => simp at h
  | cons x xs ih =>
    obtain ⟨k, y⟩ := x
    by_cases hk : n = k
    · subst hk; simp at h; subst h; simp
    · have hk' : (n == k) = false := by simpa using hk
      simp only [List.lookup, hk'] at h
      exact List.mem_cons_of_mem _ (ih h)

theorem lookup_isNone {α : Type} {l : List (String × α)} {n : String} : l.lookup n = none ↔ ∀ v, (n, v) ∉ l := by
  induction l with
  | nil => simp
  | cons x xs ih =>
    obtain ⟨k, y⟩ := x
    by_cases hk : n = k
    · subst hk
      simp only [List.lookup, beq_self_eq_true, reduceCtorEq, false_iff]
      intro h
      exact h y (by simp)
    · have hk' : (n == k) = false := by simpa using hk
      simp only [List.lookup, hk', ih]
      constructor
      · intro h v hm
        rcases List.mem_cons.1 hm with e | e
        · cases e; exact hk rfl
        · exact h v e
      · exact fun h v hm => h v (List.mem_cons_of_mem _ hm)

theorem mem_lookup {α : Type} {l : List (String × α)} (hn : (l.map (·.1)).Nodup) {n : String} {v : α} (h : (n, v) ∈ l) :
    l.lookup n = some v := by
  induction l with
  | nil => simp at h
  | cons x xs ih =>
    obtain ⟨k, y⟩ := x
    simp only [List.map_cons, List.nodup_cons] at hn
    rcases List.mem_cons.1 h with e | h'
    · cases e; simp
    · have : n ≠ k := by
        rintro rfl
        exact hn.1 (List.mem_map.2 ⟨_, h', rfl⟩)
      have hk' : (n == k) = false := by simpa using this
      simp only [List.lookup, hk']
      exact ih hn.2 h'

theorem sig_unique {sig : List (String × Bool)} (hn : (sig.map (·.1)).Nodup) {i j : Nat} {n : String} {r s : Bool}
    (h1 : sig[i]? = some (n, r)) (h2 : sig[j]? = some (n, s)) : i = j := by
  have a1 : (sig.map (·.1))[i]? = some n := by simp [h1]
  have a2 : (sig.map (·.1))[j]? = some n := by simp [h2]
  have hi : i < (sig.map (·.1)).length := by
    by_contra hge
    rw [List.getElem?_eq_none (by omega)] at a1; cases a1
  exact (List.nodup_iff_getElem?_ne_getElem?.1 hn |> fun H => by
    by_contra hne
    rcases Nat.lt_or_gt_of_ne hne with hlt | hlt
    · exact H i j hlt (by
        by_contra hge
        rw [List.getElem?_eq_none (by omega)] at a2; cases a2) (by rw [a1, a2])
    · exact H j i hlt hi (by rw [a1, a2]))

theorem fits_iff {sig : List (String × Bool)} (hn : (sig.map (·.1)).Nodup) (pos : List Given) (kw : List (String × Given)) :
    (∃ b, bindArgs sig pos kw = .ok b) ↔ Fits sig pos kw := by
  unfold bindArgs Fits
  constructor
  · rintro ⟨b, hb⟩
    split_ifs at hb with h1 h2 h3 h4
    simp only [List.any_eq_true, not_exists, not_and, Bool.not_eq_true, Bool.not_eq_false', List.contains_eq_mem, decide_eq_true_eq,
      decide_eq_false_iff_not, Bool.not_eq_eq_eq_not, Bool.not_true, Bool.not_false] at h2 h3 h4
    refine ⟨by omega, ?_, ?_⟩
    · intro n v hv
      have a := h2 _ hv
      have b := h3 _ hv
      obtain ⟨⟨n', r⟩, hm, rfl⟩ := List.mem_map.1 (not_not.1 a)
      obtain ⟨i, hi, he⟩ := List.getElem_of_mem hm
      refine ⟨i, r, by rw [List.getElem?_eq_getElem hi, he], ?_⟩
      by_contra hlt
      refine b (List.mem_map.2 ⟨(n', r), ?_, rfl⟩)
      rw [List.mem_take_iff_getElem]
      exact ⟨i, by omega, he⟩
    · intro i n hi
      by_cases hlt : i < pos.length
      · exact .inl hlt
      · right
        have hm : (n, true) ∈ sig.drop pos.length := by
          rw [List.mem_iff_getElem?]
          exact ⟨i - pos.length, by rw [List.getElem?_drop]; rw [show pos.length + (i - pos.length) = i by omega]; exact hi⟩
        have := h4 _ hm
        simp only [Bool.true_and] at this
        cases hl : kw.lookup n with
        | none => rw [hl] at this; cases this
        | some v => exact ⟨v, lookup_mem hl⟩
  · rintro ⟨h1, h2, h3⟩
    have g1 : ¬ sig.length < pos.length := by omega
    have g2 : (kw.any fun x => !((sig.map (·.1)).contains x.1)) = false := by
      rw [List.any_eq_false]
      rintro ⟨n, v⟩ hv
      obtain ⟨i, r, hi, -⟩ := h2 n v hv
      have : n ∈ sig.map (·.1) := List.mem_map.2 ⟨(n, r), List.mem_of_getElem? hi, rfl⟩
      simp only [List.contains_eq_mem, this, decide_true]
      decide
    have g3 : (kw.any fun x => ((sig.take pos.length).map (·.1)).contains x.1) = false := by
      rw [List.any_eq_false]
      rintro ⟨n, v⟩ hv hc
      simp only [List.contains_eq_mem, decide_eq_true_eq] at hc
      obtain ⟨⟨n', r'⟩, hm, rfl⟩ := List.mem_map.1 hc
      obtain ⟨i, r, hi, hle⟩ := h2 n' v hv
      obtain ⟨j, hj, he⟩ := List.mem_take_iff_getElem.1 hm
      have hj' : sig[j]? = some (n', r') := by rw [List.getElem?_eq_getElem (by omega), he]
      have := sig_unique hn hi hj'
      omega
    have g4 : ((sig.drop pos.length).any fun s => s.2 && (kw.lookup s.1).isNone) = false := by
      rw [List.any_eq_false]
      rintro ⟨n, r⟩ hs hc
      simp only [Bool.and_eq_true, Option.isNone_iff_eq_none] at hc
      obtain ⟨rfl, hl⟩ := hc
      obtain ⟨j, hj⟩ := List.mem_iff_getElem?.1 hs
      rw [List.getElem?_drop] at hj
      rcases h3 _ n hj with hlt | ⟨v, hv⟩
      · omega
      · exact lookup_isNone.1 hl v hv
    simp only [g1, g2, g3, g4, Bool.false_eq_true, if_false]
    exact ⟨_, rfl⟩

theorem bindArgs_lookup {sig : List (String × Bool)} (hn : (sig.map (·.1)).Nodup) {pos : List Given} {kw : List (String × Given)}
    {b : List (String × Given)} (hb : bindArgs sig pos kw = .ok b) {i : Nat} {n : String} {r : Bool} (hi : sig[i]? = some (n, r)) :
    b.lookup n = some (argAt pos kw n i) := by
  unfold bindArgs at hb
  split_ifs at hb
  cases hb
  refine mem_lookup ?_ (List.mem_map.2 ⟨((n, r), i), ?_, rfl⟩)
  · have : (List.map (fun x : (String × Bool) × Nat => (x.1.1, argAt pos kw x.1.1 x.2)) sig.zipIdx).map (·.1) = sig.map (·.1) := by
      rw [List.map_map]
      conv_rhs => rw [← List.zipIdx_map_fst 0 sig, List.map_map]
      rfl
    rw [this]; exact hn
  · rw [List.mem_zipIdx_iff_getElem?]; exact hi

theorem argAt_receives {pos : List Given} {kw : List (String × Given)} (hk : (kw.map (·.1)).Nodup) {n : String} {i : Nat} {v : Given} :
    Receives pos kw i n v ↔ argAt pos kw n i = v := by
  unfold Receives argAt
  by_cases hlt : i < pos.length
  · simp only [hlt, if_true, List.getD_eq_getElem?_getD, List.getElem?_eq_getElem hlt, Option.getD_some, Option.some.injEq]
    constructor
    · rintro (h | ⟨h, -⟩ | ⟨h, -⟩)
      · exact h
      · omega
      · omega
    · exact .inl
  · simp only [hlt, if_false]
    have hnone : pos[i]? = none := List.getElem?_eq_none (by omega)
    constructor
    · rintro (h | ⟨-, h⟩ | ⟨-, h, rfl⟩)
      · rw [hnone] at h; cases h
      · rw [mem_lookup hk h]; rfl
      · rw [lookup_isNone.2 h]; rfl
    · intro h
      right
      cases hl : kw.lookup n with
      | none => right; exact ⟨by omega, lookup_isNone.1 hl, by rw [hl] at h; exact h.symm⟩
      | some x => left; rw [hl] at h; simp at h; subst h; exact ⟨by omega, lookup_mem hl⟩

/-- Filling the slots of one component. -/
theorem fill_spec (rnd : ℚ → ℚ) (c : Cid) (l : List (Config × Pid × Given)) : ∀ (w : World) (used : List Cid), WInv w used → w.heap.live c →
    (l.map (·.1.name)).Nodup → (l.map (·.2.1)).Nodup → (∀ x ∈ l, w.obj x.2.1 = none) →
    (∀ x ∈ l, ∀ p, x.2.2 = .param p → ∃ o, w.obj p = some o) →
    ((fill rnd w c l).2 = none ↔ ∀ x ∈ l, Acceptable x.1 x.2.2) ∧
    ((fill rnd w c l).2 = none →
      (∀ x ∈ l, Holds rnd (fill rnd w c l).1 c x.1 x.2.1 x.2.2) ∧
      (∀ c' n', (c' ≠ c ∨ n' ∉ l.map (·.1.name)) → (fill rnd w c l).1.heap.slot c' n' = w.heap.slot c' n') ∧
      (∀ q, q ∉ l.map (·.2.1) → (∀ x ∈ l, x.2.2 ≠ .param q) → (fill rnd w c l).1.obj q = w.obj q) ∧
      (∀ q o, w.obj q = some o → ∃ o', (fill rnd w c l).1.obj q = some o' ∧ o'.uniform = o.uniform)) := by
  induction l with
  | nil =>
    intro w used hw hc _ _ _ _
    simp only [fill, List.not_mem_nil, false_imp_iff, implies_true, true_iff, true_and, forall_const]
    exact fun q o h => ⟨o, h, rfl⟩
  | cons x l ih =>
    obtain ⟨cfg, fresh, g⟩ := x
    intro w used hw hc hn hf hfo hgo
    simp only [List.map_cons, List.nodup_cons] at hn hf
    have hf0 : w.obj fresh = none := hfo (cfg, fresh, g) (by simp)
    have hg0 : ∀ p, g = .param p → ∃ o, w.obj p = some o := hgo (cfg, fresh, g) (by simp)
    obtain ⟨hw', hs⟩ := setSlot_spec rnd hw hc cfg hf0 g hg0
    rcases hs with ⟨e, he, hnp, hna⟩ | ⟨w1, p, he, hsl, hoth, hlive, hobj, hcase⟩
    · have hfill : fill rnd w c ((cfg, fresh, g) :: l) = (w, some e) := by simp [fill, he]
      refine ⟨?_, fun h => by rw [hfill] at h; cases h⟩
      rw [hfill]
      simp only [reduceCtorEq, false_iff]
      intro hall
      rcases hall (cfg, fresh, g) (by simp) with ⟨p, hp⟩ | ⟨a, ha, hv⟩
      · exact hnp p hp
      · exact hna a ha hv
    · have hfill : fill rnd w c ((cfg, fresh, g) :: l) = fill rnd w1 c l := by simp [fill, he]
      rw [he] at hw'
      have hcase' : p = fresh ∨ (g = .param p ∧ ∃ o, w.obj p = some o) := by
        rcases hcase with ⟨h1, o, o', h2, -⟩ | ⟨h1, -⟩
        · exact .inr ⟨h1, o, h2⟩
        · exact .inl h1
      have hobj1 : ∀ q o, w.obj q = some o → ∃ o', w1.obj q = some o' ∧ o'.uniform = o.uniform := by
        intro q o hq
        by_cases hqp : q = p
        · subst hqp
          rcases hcase with ⟨-, o1, o2, h2, h3, h4, -⟩ | ⟨rfl, -⟩
          · rw [hq] at h2; cases h2; exact ⟨o2, h3, h4⟩
          · rw [hf0] at hq; cases hq
        · exact ⟨o, by rw [hobj q hqp]; exact hq, rfl⟩
      have hfresh' : ∀ x ∈ l, w1.obj x.2.1 = none := by
        intro x hx
        have h1 : w.obj x.2.1 = none := hfo x (List.mem_cons_of_mem _ hx)
        rw [hobj _ ?_]
        · exact h1
        · rintro rfl
          rcases hcase' with h2 | ⟨-, o, h2⟩
          · exact hf.1 (List.mem_map.2 ⟨x, hx, h2⟩)
          · rw [h1] at h2; cases h2
      have hgo' : ∀ x ∈ l, ∀ q, x.2.2 = .param q → ∃ o, w1.obj q = some o := by
        intro x hx q hq
        obtain ⟨o, ho⟩ := hgo x (List.mem_cons_of_mem _ hx) q hq
        obtain ⟨o', h1, -⟩ := hobj1 q o ho
        exact ⟨o', h1⟩
      obtain ⟨i1, i2⟩ := ih w1 used hw' (by rw [hlive]; exact hc) hn.2 hf.2 hfresh' hgo'
      rw [hfill]
      have hacc : Acceptable cfg g := by
        rcases hcase with ⟨h1, -⟩ | ⟨-, a, u, h2, h3, -⟩
        · exact .inl ⟨p, h1⟩
        · exact .inr ⟨a, h2, h3⟩
      constructor
      · rw [i1]
        constructor
        · intro h x hx
          rcases List.mem_cons.1 hx with rfl | hx
          · exact hacc
          · exact h x hx
        · intro h x hx
          exact h x (List.mem_cons_of_mem _ hx)
      · intro hok
        obtain ⟨j1, j2, j3, j4⟩ := i2 hok
        have hkeep : (fill rnd w1 c l).1.heap.slot c cfg.name = some p := by
          rw [j2 c cfg.name (.inr hn.1)]; exact hsl
        refine ⟨?_, ?_, ?_, ?_⟩
        · intro x hx
          rcases List.mem_cons.1 hx with rfl | hx
          · rcases hcase with ⟨h1, -⟩ | ⟨h1, a, u, h2, h3, h4, h5⟩
            · exact .inl ⟨p, h1, hkeep⟩
            · subst h1
              refine .inr ⟨hkeep, a, u, h2, h4, ?_⟩
              rw [j3 p hf.1 ?_]
              · exact h5
              · intro x hx hxp
                obtain ⟨o, ho⟩ := hgo x (List.mem_cons_of_mem _ hx) p hxp
                rw [hf0] at ho; cases ho
          · exact j1 x hx
        · intro c' n' hne
          simp only [List.map_cons, List.mem_cons, not_or] at hne
          rw [j2 c' n' (hne.imp id fun h => h.2), hoth c' n' ?_]
          intro heq
          cases heq
          rcases hne with h | h
          · exact h rfl
          · exact h.1 rfl
        · intro q hq1 hq2
          simp only [List.map_cons, List.mem_cons, not_or] at hq1
          rw [j3 q hq1.2 (fun x hx => hq2 x (List.mem_cons_of_mem _ hx)), hobj q ?_]
          rintro rfl
          rcases hcase' with h | ⟨h, -⟩
          · exact hq1.1 h
          · exact hq2 (cfg, fresh, g) (by simp) h
        · intro q o hq
          obtain ⟨o1, h1, h2⟩ := hobj1 q o hq
          obtain ⟨o2, h3, h4⟩ := j4 q o1 h1
          exact ⟨o2, h3, h4.trans h2⟩

theorem newComponent_reach {rnd : ℚ → ℚ} {w : World} {used : List Cid} (h : Reach rnd w used) {c : Cid} (hc : c ∉ used) :
    Reach rnd (newComponent w c) (used ++ [c]) := .component c h hc

theorem config_sig (k : Class) {i : Nat} {cfg : Config} (hi : k.config[i]? = some cfg) :
    k.signature[k.args.length + i]? = some (cfg.name, false) := by
  have hlt : i < k.config.length := by
    by_contra hge
    rw [List.getElem?_eq_none (by omega)] at hi; cases hi
  rw [Class.signature, List.append_assoc, List.append_assoc, List.getElem?_append_right (by simp), List.getElem?_append_left (by simpa using hlt)]
  simp [hi]

/-! ## C88 -/

/-- The conditions under which a class is called: the names of its signature are distinct (otherwise the class cannot be defined), keywords
of a call are distinct, newly created objects are at identities not in use, given parameters exist. -/
structure Callable (w : World) (used : List Cid) (c : Cid) (k : Class) (fresh : Nat → Pid) (pos : List Given) (kw : List (String × Given)) :
    Prop where
  names : (k.signature.map (·.1)).Nodup
  keywords : (kw.map (·.1)).Nodup
  address : c ∉ used
  ids : Function.Injective fresh
  unused : ∀ i, w.obj (fresh i) = none
  given : ∀ p, (.param p) ∈ pos ∨ (∃ n, (n, .param p) ∈ kw) → ∃ o, w.obj p = some o

/-- **C88.** A call of a component class raises `TypeError` exactly when its arguments do not fit the signature (extra arguments, declared
parameters in declared order, `latex`, extra keywords). -/
theorem C88_signature (rnd : ℚ → ℚ) (w : World) (c : Cid) (k : Class) (fresh : Nat → Pid) (pos : List Given) (kw : List (String × Given))
    (hn : (k.signature.map (·.1)).Nodup) :
    (∃ e, call rnd w c k fresh pos kw = .typeError e) ↔ ¬ Fits k.signature pos kw := by
  rw [← fits_iff hn, call]
  cases bindArgs k.signature pos kw with
  | error e => simp
  | ok b =>
    simp only [Except.ok.injEq, exists_eq', not_true_eq_false, iff_false, not_exists]
    intro e
    split <;> simp

/-- **C88.** What has to be given: the extra positional arguments of the class and nothing else.  A call raises no `TypeError` exactly when
there are no more positional arguments than names (extra arguments, declared parameters, `latex`, extra keywords), every keyword is one of
these names beyond the positional arguments, and every extra argument is given by position or by keyword. -/
theorem C88_required (rnd : ℚ → ℚ) (w : World) (c : Cid) (k : Class) (fresh : Nat → Pid) (pos : List Given) (kw : List (String × Given))
    (hn : (k.args ++ k.config.map (·.name) ++ ["latex"] ++ k.kwargs).Nodup) :
    (∀ e, call rnd w c k fresh pos kw ≠ .typeError e) ↔
      pos.length ≤ k.args.length + k.config.length + 1 + k.kwargs.length ∧
      (∀ n v, (n, v) ∈ kw → ∃ i : Nat, (k.args ++ k.config.map (·.name) ++ ["latex"] ++ k.kwargs)[i]? = some n ∧ pos.length ≤ i) ∧
      (∀ (i : Nat) a, k.args[i]? = some a → i < pos.length ∨ ∃ v, (a, v) ∈ kw) := by
  have hs : k.signature.map (·.1) = k.args ++ k.config.map (·.name) ++ ["latex"] ++ k.kwargs := by
    simp [Class.signature, Function.comp_def]
  have h1 := C88_signature rnd w c k fresh pos kw (by rw [hs]; exact hn)
  have h2 : (∀ e, call rnd w c k fresh pos kw ≠ .typeError e) ↔ Fits k.signature pos kw := by
    rw [← not_iff_not, ← h1]
    push Not
    rfl
  rw [h2, Fits, ← hs]
  have hl : k.signature.length = k.args.length + k.config.length + 1 + k.kwargs.length := by simp [Class.signature]; omega
  rw [hl]
  refine and_congr Iff.rfl (and_congr ?_ ?_)
  · refine forall_congr' fun n => forall_congr' fun v => imp_congr_right fun _ => exists_congr fun i => ?_
    rw [List.getElem?_map]
    constructor
    · rintro ⟨r, e, h⟩; exact ⟨by rw [e]; rfl, h⟩
    · rintro ⟨e, h⟩
      cases hx : k.signature[i]? with
      | none => rw [hx] at e; cases e
      | some x =>
        rw [hx] at e
        simp only [Option.map_some, Option.some.injEq] at e
        subst e
        exact ⟨x.2, rfl, h⟩
  · refine forall_congr' fun i => forall_congr' fun n => ?_
    have : k.signature[i]? = some (n, true) ↔ k.args[i]? = some n := by
      rw [Class.signature, List.append_assoc, List.append_assoc, List.getElem?_append]
      split_ifs with hi
      · rw [List.getElem?_map]
        cases k.args[i]? <;> simp
      · rw [List.length_map] at hi
        rw [List.getElem?_eq_none (by omega : k.args.length ≤ i)]
        simp only [reduceCtorEq, iff_false]
        intro h
        have := List.mem_of_getElem? h
        simp at this
    rw [this]

/-- The values that reach the slots. -/
theorem slots_receive {k : Class} (hn : (k.signature.map (·.1)).Nodup) {pos : List Given} {kw : List (String × Given)}
    {b : List (String × Given)} (hb : bindArgs k.signature pos kw = .ok b) (fresh : Nat → Pid) :
    slots k fresh b = k.config.zipIdx.map fun x => (x.1, fresh x.2, argAt pos kw x.1.name (k.args.length + x.2)) := by
  rw [slots]
  refine List.map_congr_left ?_
  rintro ⟨cfg, i⟩ hm
  rw [List.mem_zipIdx_iff_getElem?] at hm
  simp only [bindArgs_lookup hn hb (config_sig k hm), Option.getD_some]

/-- **C88.** In every reachable world, a call that fits the signature succeeds exactly when every declared parameter receives an acceptable
value: the positional argument at its place (after the extra arguments), the keyword argument of its name, or none (its declaration).  Then
every slot of the new component holds what its parameter received; no slot of another component has changed, no parameter object that
existed has changed in value, bounds, scale or prior. -/
theorem C88_call (rnd : ℚ → ℚ) (w : World) (used : List Cid) (h : Reach rnd w used) (c : Cid) (k : Class) (fresh : Nat → Pid)
    (pos : List Given) (kw : List (String × Given)) (hc : Callable w used c k fresh pos kw) (hfit : Fits k.signature pos kw) :
    ((∃ w', call rnd w c k fresh pos kw = .built w') ↔
      ∀ (i : Nat) cfg v, k.config[i]? = some cfg → Receives pos kw (k.args.length + i) cfg.name v → Acceptable cfg v) ∧
    (∀ w', call rnd w c k fresh pos kw = .built w' →
      (∀ (i : Nat) cfg v, k.config[i]? = some cfg → Receives pos kw (k.args.length + i) cfg.name v → Holds rnd w' c cfg (fresh i) v) ∧
      (∀ c' n', c' ≠ c → w'.heap.slot c' n' = w.heap.slot c' n') ∧
      (∀ q o, w.obj q = some o → ∃ o', w'.obj q = some o' ∧ o'.uniform = o.uniform)) := by
  obtain ⟨b, hb⟩ := (fits_iff hc.names pos kw).2 hfit
  have hsl := slots_receive hc.names hb fresh
  have hw := reach_inv (newComponent_reach h hc.address)
  have hmem : ∀ x, x ∈ slots k fresh b ↔ ∃ (i : Nat) (cfg : Config), k.config[i]? = some cfg ∧ x = (cfg, fresh i, argAt pos kw cfg.name (k.args.length + i)) := by
    intro x
    rw [hsl, List.mem_map]
    constructor
    · rintro ⟨⟨cfg, i⟩, hm, rfl⟩
      exact ⟨i, cfg, List.mem_zipIdx_iff_getElem?.1 hm, rfl⟩
    · rintro ⟨i, cfg, hi, rfl⟩
      exact ⟨(cfg, i), List.mem_zipIdx_iff_getElem?.2 hi, rfl⟩
  have hnames : ((slots k fresh b).map (·.1.name)).Nodup := by
    have : (slots k fresh b).map (·.1.name) = k.config.map (·.name) := by
      rw [slots, List.map_map]
      conv_rhs => rw [← List.zipIdx_map_fst 0 k.config, List.map_map]
      rfl
    rw [this]
    have hs : k.signature.map (·.1) = k.args ++ (k.config.map (·.name) ++ (["latex"] ++ k.kwargs)) := by
      simp [Class.signature, Function.comp_def]
    have := hc.names
    rw [hs, List.nodup_append] at this
    exact (List.nodup_append.1 this.2.1).1
  have hids : ((slots k fresh b).map (·.2.1)).Nodup := by
    have : (slots k fresh b).map (·.2.1) = (k.config.zipIdx.map (·.2)).map fresh := by
      rw [slots, List.map_map, List.map_map]; rfl
    rw [this]
    refine List.Nodup.map hc.ids ?_
    rw [List.zipIdx_map_snd]
    exact List.nodup_range'
  have hun : ∀ x ∈ slots k fresh b, (newComponent w c).obj x.2.1 = none := by
    intro x hx
    obtain ⟨i, cfg, -, rfl⟩ := (hmem x).1 hx
    exact hc.unused i
  have hgv : ∀ x ∈ slots k fresh b, ∀ p, x.2.2 = .param p → ∃ o, (newComponent w c).obj p = some o := by
    intro x hx p hp
    obtain ⟨i, cfg, -, rfl⟩ := (hmem x).1 hx
    rcases (argAt_receives hc.keywords).2 hp with h1 | ⟨-, h1⟩ | ⟨-, -, h1⟩
    · exact hc.given p (.inl (List.mem_of_getElem? h1))
    · exact hc.given p (.inr ⟨_, h1⟩)
    · cases h1
  obtain ⟨f1, f2⟩ := fill_spec rnd c (slots k fresh b) (newComponent w c) (used ++ [c]) hw (.inl rfl) hnames hids hun hgv
  have hcall : call rnd w c k fresh pos kw =
      (match fill rnd (newComponent w c) c (slots k fresh b) with
      | (w', some e) => .failed w' e
      | (w', none) => .built w') := by simp only [call, hb]; rfl
  have hiff : ∀ w', call rnd w c k fresh pos kw = .built w' ↔ fill rnd (newComponent w c) c (slots k fresh b) = (w', none) := by
    intro w'
    rw [hcall]
    rcases fill rnd (newComponent w c) c (slots k fresh b) with ⟨w'', e | e⟩ <;> simp
  constructor
  · have : (∃ w', call rnd w c k fresh pos kw = .built w') ↔ (fill rnd (newComponent w c) c (slots k fresh b)).2 = none := by
      constructor
      · rintro ⟨w', hw'⟩
        rw [(hiff w').1 hw']
      · intro he
        exact ⟨_, (hiff _).2 (Prod.ext rfl he)⟩
    rw [this, f1]
    constructor
    · intro hall i cfg v hi hv
      rw [argAt_receives hc.keywords] at hv
      have := hall _ ((hmem _).2 ⟨i, cfg, hi, rfl⟩)
      rw [hv] at this
      exact this
    · intro hall x hx
      obtain ⟨i, cfg, hi, rfl⟩ := (hmem x).1 hx
      exact hall i cfg _ hi ((argAt_receives hc.keywords).2 rfl)
  · intro w' hw'
    have he := (hiff w').1 hw'
    have h2 := f2 (by rw [he])
    rw [he] at h2
    obtain ⟨g1, g2, -, g4⟩ := h2
    refine ⟨?_, ?_, g4⟩
    · intro i cfg v hi hv
      rw [argAt_receives hc.keywords] at hv
      have := g1 _ ((hmem _).2 ⟨i, cfg, hi, rfl⟩)
      rw [hv] at this
      exact this
    · intro c' n' hne
      rw [g2 c' n' (.inl hne)]
      simp [newComponent, Function.update_of_ne hne]

/-- **C88.** A class that declares its own parameters and whose bases are prototypes can be instantiated. -/
theorem C88_prototype (rest : List (Option Init)) (h : findInit rest = some .base) : creates (some .generated :: rest) = true := by
  simp [creates, findInit] at *
  simp [h]

/-- **C88 (refuted).** A concrete component cannot be subclassed: whatever its bases, a class derived from it (first in the method resolution
order after the subclass) raises `TypeError` on every instantiation, whether or not it declares parameters of its own. -/
theorem C88_subclass_refuted (rest : List (Option Init)) :
    creates (none :: some .generated :: rest) = false ∧ creates (some .generated :: some .generated :: rest) = false := by
  simp [creates, findInit]

/-! ### Examples and refutations -/

/-- A power law, as `PowerLaw` is declared (add.py:632-657) but for the numbers. -/
def exClass : Class := ⟨[], [exCfg2, exCfg], []⟩

/-- A power law normalised to its flux, with two required energies (add.py:660-708). -/
def exClass2 : Class := ⟨["emin", "emax"], [exCfg2, exCfg], ["method"]⟩

theorem exFresh_inj : Function.Injective fun i : Nat => i + 100 := fun a b h => by simpa using h

theorem exWorld_unused (i : Nat) : exWorld.obj (i + 100) = none := rfl

/-- `PowerLaw(p, K=[2, 1, 5])` with the parameter `p` of another component. -/
example : Callable exWorld [1, 2] 3 exClass (· + 100) [.param 0] [("K", .seq [.num (.fin 2), .num (.fin 1), .num (.fin 5)])] :=
  ⟨by decide, by decide, by decide, exFresh_inj, exWorld_unused, by
    rintro p (hp | ⟨n, hn⟩)
    · rw [List.mem_singleton] at hp; cases hp; exact ⟨_, rfl⟩
    · simp at hn⟩

example : Fits exClass.signature [.param 0] [("K", .seq [.num (.fin 2), .num (.fin 1), .num (.fin 5)])] := by
  refine (fits_iff (by decide) _ _).1 ⟨_, rfl⟩

example : ∃ w', call id exWorld 3 exClass (· + 100) [.param 0] [("K", .seq [.num (.fin 2), .num (.fin 1), .num (.fin 5)])] = .built w' ∧
    w'.heap.slot 3 "alpha" = some 0 ∧ w'.heap.slot 3 "K" = some 101 ∧ w'.heap.slot 1 "alpha" = some 0 := ⟨_, rfl, rfl, rfl, rfl⟩

/-- The two energies are required. -/
example : call id exWorld 3 exClass2 (· + 100) [.other] [] = .typeError .missing := rfl

/-- Misspelt parameter names are rejected. -/
example : call id exWorld 3 exClass (· + 100) [] [("kk", .number (.fin 2))] = .typeError .unexpected := rfl

example : creates [some .generated, none, some .base, none] = true := by decide

/-- **C88 (refuted).** A constructor that raises is not without effect: a parameter given to an earlier slot is recorded as
belonging to a component that never came to exist. -/
theorem C88_failed_refuted :
    ∃ (w : World) (used : List Cid) (w' : World) (e : SErr), Reach id w used ∧
      call id w 3 exClass (· + 100) [.param 0, .other] [] = .failed w' e ∧ w.heap.hist 0 = [(1, "alpha")] ∧
      w'.heap.hist 0 = [(1, "alpha"), (3, "alpha")] :=
  ⟨exWorld, [1, 2], _, _, exWorld_reach, rfl, rfl, rfl⟩

example := C88_signature id exWorld 3 exClass2 (· + 100) [.other] [] (by decide)
example := C88_required id exWorld 3 exClass2 (· + 100) [.other] [] (by decide)
example := C88_prototype [some .base, none] rfl

end Elisa.Models.Slot
