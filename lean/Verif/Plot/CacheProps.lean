import Verif.Plot.Cache

/-!
# C99: plots show the simulations in force
-/

namespace Elisa.Plot.Cache

/-- What the calls of a history should return: computed from the simulations in force at that time. -/
def shown {C K V W : Type} (f : Option C → K → V) (g : Option C → V → K → W) (arg : K → K) : Option C → List (Event C K) → List (Option (V ⊕ W))
  | _, [] => []
  | _, .run _ c :: es => none :: shown f g arg (some c) es
  | x, .inner k :: es => some (.inl (f x k)) :: shown f g arg x es
  | x, .outer k :: es => some (.inr (g x (f x (arg k)) k)) :: shown f g arg x es

/-- Addresses as Python gives them out: a new object is made while the one it replaces is still alive, and `None` keeps the address 0. -/
def Possible {C K : Type} : Nat → List (Event C K) → Prop
  | _, [] => True
  | a, .run b _ :: es => b ≠ a ∧ b ≠ 0 ∧ Possible b es
  | a, .inner _ :: es => Possible a es
  | a, .outer _ :: es => Possible a es

/-- No address is given out twice (`used` are those given out before). -/
def NoReuse {C K : Type} : List Nat → List (Event C K) → Prop
  | _, [] => True
  | used, .run b _ :: es => b ∉ used ∧ NoReuse (b :: used) es
  | used, .inner _ :: es => NoReuse used es
  | used, .outer _ :: es => NoReuse used es

/-- Between two runs of simulations the outer method is called (the plot is drawn). -/
def Drawn {C K : Type} : Bool → List (Event C K) → Prop
  | _, [] => True
  | called, .run _ _ :: es => called = true ∧ Drawn false es
  | called, .inner _ :: es => Drawn called es
  | _, .outer _ :: es => Drawn true es

/-- the entries of a cache belong to the content `x` -/
def Memo.Of {C K V : Type} (c : Memo K V) (F : Option C → K → V) (x : Option C) : Prop := ∀ k v, c.memo k = some v → v = F x k

theorem check_of {C K V : Type} {c : Memo K V} {F : Option C → K → V} {w : Held C} (h : c.old = w.addr → c.Of F w.content) :
    (c.check w).Of F w.content ∧ (c.check w).old = w.addr := by
  unfold Memo.check
  split
  · rename_i hne
    refine ⟨fun k v hv => ?_, rfl⟩
    cases hv
  · rename_i he
    have he : c.old = w.addr := by
      by_contra hn
      exact he fun e => hn e.symm
    exact ⟨h he, he⟩

theorem call_of {C K V : Type} [DecidableEq K] {c : Memo K V} {F : Option C → K → V} {w : Held C} (h : c.old = w.addr → c.Of F w.content) (k : K) :
    (c.call F w k).1 = F w.content k ∧ (c.call F w k).2.Of F w.content ∧ (c.call F w k).2.old = w.addr := by
  obtain ⟨h1, h2⟩ := check_of h
  unfold Memo.call
  cases hm : (c.check w).memo k with
  | some v => exact ⟨h1 k v hm, h1, h2⟩
  | none =>
    refine ⟨rfl, ?_, h2⟩
    intro k' v hv
    by_cases hk : k' = k
    · subst hk
      simp at hv
      exact hv.symm
    · simp only [Function.update_of_ne hk] at hv
      exact h1 k' v hv

theorem outer_of {C K V W : Type} [DecidableEq K] {f : Option C → K → V} {g : Option C → V → K → W} {arg : K → K} {s : State C K V W}
    (hi : s.inner.old = s.held.addr → s.inner.Of f s.held.content)
    (ho : s.outer.old = s.held.addr → s.outer.Of (fun x k => g x (f x (arg k)) k) s.held.content) (k : K) :
    (s.callOuter f g arg k).1 = g s.held.content (f s.held.content (arg k)) k ∧ (s.callOuter f g arg k).2.held = s.held ∧
    (s.callOuter f g arg k).2.outer.Of (fun x k => g x (f x (arg k)) k) s.held.content ∧ (s.callOuter f g arg k).2.outer.old = s.held.addr ∧
    ((s.callOuter f g arg k).2.inner.old = s.held.addr → (s.callOuter f g arg k).2.inner.Of f s.held.content) ∧
    ((s.callOuter f g arg k).2.inner.old = s.inner.old ∨ (s.callOuter f g arg k).2.inner.old = s.held.addr) := by
  obtain ⟨h1, h2⟩ := check_of ho
  obtain ⟨c1, c2, c3⟩ := call_of hi (arg k)
  unfold State.callOuter
  cases hm : (s.outer.check s.held).memo k with
  | some v => exact ⟨h1 k v hm, rfl, h1, h2, hi, .inl rfl⟩
  | none =>
    refine ⟨by simp only [c1], rfl, ?_, h2, fun _ => c2, .inr c3⟩
    intro k' v hv
    by_cases hk : k' = k
    · subst hk
      simp only [Function.update_self, Option.some.injEq] at hv
      rw [← hv, c1]
    · simp only [Function.update_of_ne hk] at hv
      exact h1 k' v hv

theorem runs_noReuse {C K V W : Type} [DecidableEq K] (f : Option C → K → V) (g : Option C → V → K → W) (arg : K → K) (es : List (Event C K)) :
    ∀ (s : State C K V W) (used : List Nat), NoReuse used es → s.held.addr ∈ used → s.inner.old ∈ used → s.outer.old ∈ used →
      (s.inner.old = s.held.addr → s.inner.Of f s.held.content) →
      (s.outer.old = s.held.addr → s.outer.Of (fun x k => g x (f x (arg k)) k) s.held.content) →
      s.runs f g arg es = shown f g arg s.held.content es := by
  induction es with
  | nil => intros; rfl
  | cons e es ih =>
    intro s used hn h1 h2 h3 hi ho
    cases e with
    | run b c =>
      show none :: _ = none :: _
      congr 1
      obtain ⟨hb, hn⟩ := hn
      refine ih { s with held := ⟨b, some c⟩ } (b :: used) hn (by simp) (by simp [h2]) (by simp [h3]) ?_ ?_
      · intro e
        exact absurd (show b ∈ used from (show s.inner.old = b from e) ▸ h2) hb
      · intro e
        exact absurd (show b ∈ used from (show s.outer.old = b from e) ▸ h3) hb
    | inner k =>
      obtain ⟨c1, c2, c3⟩ := call_of hi k
      show some (Sum.inl _) :: _ = some (Sum.inl _) :: _
      rw [c1]
      congr 1
      exact ih { s with inner := (s.inner.call f s.held k).2 } used hn h1 (by rw [c3]; exact h1) h3 (fun _ => c2) ho
    | outer k =>
      obtain ⟨c1, c2, c3, c4, c5, c6⟩ := outer_of hi ho k
      show some (Sum.inr _) :: _ = some (Sum.inr _) :: _
      rw [c1]
      congr 1
      have := ih (s.callOuter f g arg k).2 used hn (by rw [c2]; exact h1) (by rcases c6 with h | h <;> rw [h] <;> assumption) (by rw [c4]; exact h1)
        (by rw [c2]; exact c5) (by rw [c2]; exact fun _ => c3)
      rw [c2] at this
      exact this

/-- **C99** (partial).  As long as no run of simulations is stored at an address used before by earlier ones, every cached quantity — also one computed from another cached quantity —
is, at every call of every history, the one that belongs to the simulations in force. -/
theorem C99_fresh_partial {C K V W : Type} [DecidableEq K] (f : Option C → K → V) (g : Option C → V → K → W) (arg : K → K) (w : Held C) (es : List (Event C K))
    (hn : NoReuse [w.addr] es) : (State.new w).runs f g arg es = shown f g arg w.content es := by
  refine runs_noReuse f g arg es (State.new w) [w.addr] hn (by simp [State.new]) (by simp [State.new]) (by simp [State.new]) ?_ ?_ <;>
  · intro _ k v hv
    cases hv

example : NoReuse [0] [Event.run 1 'a', .outer 0, .run 2 'b', .run 3 'c', .inner 0, .outer 0] := by
  simp [NoReuse]

theorem runs_drawn {C K V W : Type} [DecidableEq K] (f : Option C → K → V) (g : Option C → V → K → W) (arg : K → K) (es : List (Event C K))
    (hno : ∀ e ∈ es, ∀ k, e ≠ .inner k) :
    ∀ (s : State C K V W) (called : Bool), Possible s.held.addr es → Drawn called es → (called = true → s.outer.old = s.held.addr ∧ s.inner.old = s.held.addr) →
      (s.inner.old = s.held.addr → s.inner.Of f s.held.content) →
      (s.outer.old = s.held.addr → s.outer.Of (fun x k => g x (f x (arg k)) k) s.held.content) → (s.outer.old = s.held.addr → s.inner.old = s.held.addr) →
      s.runs f g arg es = shown f g arg s.held.content es := by
  induction es with
  | nil => intros; rfl
  | cons e es ih =>
    intro s called hp hd hc hi ho hio
    have ih := ih fun x hx => hno x (by simp [hx])
    cases e with
    | run b c =>
      obtain ⟨hb, -, hp⟩ := hp
      obtain ⟨hcl, hd⟩ := hd
      obtain ⟨k1, k2⟩ := hc hcl
      show none :: _ = none :: _
      congr 1
      refine ih { s with held := ⟨b, some c⟩ } false hp hd (by simp) ?_ ?_ ?_
      · intro e; exact absurd ((show s.inner.old = b from e).symm.trans k2) hb
      · intro e; exact absurd ((show s.outer.old = b from e).symm.trans k1) hb
      · intro e; exact absurd ((show s.outer.old = b from e).symm.trans k1) hb
    | inner k => exact absurd rfl (hno (.inner k) (by simp) k)
    | outer k =>
      obtain ⟨c1, c2, c3, c4, c5, c6⟩ := outer_of hi ho k
      have c7 : (s.callOuter f g arg k).2.inner.old = s.held.addr := by
        rcases c6 with h | h
        · by_cases ho' : s.outer.old = s.held.addr
          · rw [h]; exact hio ho'
          · have hm : (s.outer.check s.held).memo k = none := by
              unfold Memo.check
              rw [if_pos fun e => ho' e.symm]
            unfold State.callOuter
            rw [hm]
            exact (call_of hi (arg k)).2.2
        · exact h
      show some (Sum.inr _) :: _ = some (Sum.inr _) :: _
      rw [c1]
      congr 1
      have := ih (s.callOuter f g arg k).2 true (by rw [c2]; exact hp) hd (fun _ => by rw [c2]; exact ⟨c4, c7⟩) (by rw [c2]; exact c5)
        (by rw [c2]; exact fun _ => c3) (by rw [c2]; exact fun _ => c7)
      rw [c2] at this
      exact this

/-- **C99** (plots between runs; partial).  Whatever addresses Python gives out: if the plot is drawn between any two runs of simulations (and at least once before the second run
that follows the making of the plot), it always shows the simulations in force. -/
theorem C99_drawn_partial {C K V W : Type} [DecidableEq K] (f : Option C → K → V) (g : Option C → V → K → W) (arg : K → K) (w : Held C) (es : List (Event C K))
    (hno : ∀ e ∈ es, ∀ k, e ≠ .inner k) (hp : Possible w.addr es) (hd : Drawn true es) : (State.new w).runs f g arg es = shown f g arg w.content es := by
  refine runs_drawn f g arg es hno (State.new w) true hp hd (fun _ => ⟨rfl, rfl⟩) ?_ ?_ (fun _ => rfl) <;>
  · intro _ k v hv
    cases hv

example : Possible 0 [Event.run 1 'a', .outer 0, .run 2 'b', .outer 0, .run 1 'c', .outer 0] ∧
    Drawn true [Event.run 1 'a', .outer 0, .run 2 'b', .outer 0, .run 1 'c', .outer 0] := by
  simp [Possible, Drawn]

/-- **C99 fails when an address is used again:** simulations are run and a plot is drawn, two more runs follow, and the memory of the first run, free since the second, is given to the third:
the plot then shows the first simulations.  All addresses are as Python may give them out. -/
theorem C99_stale_refuted : ∃ es : List (Event Char Nat), Possible 0 es ∧
    (State.new ⟨0, none⟩ : State Char Nat (Option Char) (Option Char)).runs (fun x _ => x) (fun _ v _ => v) id es =
      [none, some (.inr (some 'a')), none, none, some (.inr (some 'a'))] ∧
    shown (fun x _ => x) (fun _ v _ => v) id (none : Option Char) es = [none, some (.inr (some 'a')), none, none, some (.inr (some 'c'))] := by
  refine ⟨[.run 1 'a', .outer 0, .run 2 'b', .run 1 'c', .outer 0], by simp [Possible], by decide, by decide⟩

end Elisa.Plot.Cache
