import Verif.Data.Group

/-! Helper lemmas for C17: the assembly of the final flags. -/

set_option linter.unusedSectionVars false

namespace Elisa.Data

open Elisa Elisa.Grouping

/-! ### Assembly -/

theorem flatnonzero_cons (m : Bool) (mask : List Bool) :
    flatnonzero (m :: mask) = (if m then [0] else []) ++ (flatnonzero mask).map Nat.succ := by
  unfold flatnonzero
  rw [List.length_cons, List.range_succ_eq_map, List.filter_cons]
  have h2 : List.filter (fun k => (m :: mask).getD k false) (List.map Nat.succ (List.range mask.length))
      = (List.filter (fun k => mask.getD k false) (List.range mask.length)).map Nat.succ := by
    rw [List.filter_map]; rfl
  rw [h2]
  cases m <;> simp

theorem mem_flatnonzero {mask : List Bool} {p : Nat} : p ∈ flatnonzero mask ↔ mask[p]? = some true := by
  unfold flatnonzero
  rw [List.mem_filter, List.mem_range, List.getD]
  constructor
  · rintro ⟨h1, h2⟩
    rw [List.getElem?_eq_getElem h1] at h2 ⊢
    simpa using h2
  · intro h
    refine ⟨(List.getElem?_eq_some_iff.1 h).1, by rw [h]; rfl⟩

theorem flatnonzero_pairwise (mask : List Bool) : (flatnonzero mask).Pairwise (· < ·) :=
  List.pairwise_lt_range.filter _

/-- start positions of consecutive blocks of the given sizes -/
def startsFrom : Nat → List Nat → List Nat
  | _, [] => []
  | s, n :: ns => s :: startsFrom (s + n) ns

/-- the assembled flags, block by block -/
def blocks : List Bool → List Nat → List Int → List Int
  | false :: m, n :: ns, g => List.replicate n 1 ++ blocks m ns g
  | true :: m, n :: ns, x :: g => (x :: List.replicate (n - 1) (-1)) ++ blocks m ns g
  | _, _, _ => []

theorem cumsumFrom_dropLast (s : Nat) (ns : List Nat) (h : ns ≠ []) :
    s :: cumsumFrom s ns.dropLast = startsFrom s ns := by
  induction ns generalizing s with
  | nil => exact absurd rfl h
  | cons n ns ih =>
    cases ns with
    | nil => rfl
    | cons m ms =>
      rw [startsFrom, ← ih (s + n) (by simp)]
      simp [cumsumFrom]

theorem putIdx_blocks (P : List Int) (ns : List Nat) (g : List Int) (hn : ∀ n ∈ ns, 0 < n)
    (hg : g.length = ns.length) :
    putIdx (P ++ List.replicate ns.sum (-1)) (startsFrom P.length ns) g =
      P ++ (List.zip g ns).flatMap fun p => p.1 :: List.replicate (p.2 - 1) (-1) := by
  induction ns generalizing P g with
  | nil => simp [startsFrom, putIdx]
  | cons n ns ih =>
    cases g with
    | nil => simp at hg
    | cons x g =>
      have hn0 := hn n (by simp)
      simp only [startsFrom, putIdx, List.zip_cons_cons, List.flatMap_cons]
      have h1 : (P ++ List.replicate (n :: ns).sum (-1)).set P.length x =
          (P ++ x :: List.replicate (n - 1) (-1)) ++ List.replicate ns.sum (-1) := by
        rw [List.set_append_right P.length x (le_refl P.length), List.append_assoc]
        congr 1
        have : (n :: ns).sum = (n - 1) + ns.sum + 1 := by simp; omega
        rw [this, List.replicate_succ]
        simp [List.replicate_append_replicate]
      have h2 : P.length + n = (P ++ x :: List.replicate (n - 1) (-1)).length := by simp; omega
      rw [h1, h2, ih _ g (fun m hm => hn m (List.mem_cons_of_mem _ hm)) (by simpa using hg)]
      simp

theorem spread_append_false (n : Nat) (m : List Bool) (v : List Int) :
    spread (List.replicate n false ++ m) v = List.replicate n 1 ++ spread m v := by
  induction n with
  | zero => rfl
  | succ n ih => simp [List.replicate_succ, spread, ih]

theorem spread_append_true (w : List Int) (m : List Bool) (v : List Int) :
    spread (List.replicate w.length true ++ m) (w ++ v) = w ++ spread m v := by
  induction w with
  | nil => rfl
  | cons x w ih => simp [List.replicate_succ, spread, ih]

theorem applyMask_cons {α : Type*} (m : Bool) (mask : List Bool) (x : α) (xs : List α) :
    applyMask (m :: mask) (x :: xs) = (if m then [x] else []) ++ applyMask mask xs := by
  cases m <;> simp [applyMask]

theorem spread_blocks (mask : List Bool) (ns : List Nat) (g : List Int) (hl : mask.length = ns.length)
    (hn : ∀ n ∈ ns, 0 < n) (hg : g.length = (applyMask mask ns).length) :
    spread (repeatMask mask ns)
      ((List.zip g (applyMask mask ns)).flatMap fun p => p.1 :: List.replicate (p.2 - 1) (-1)) =
      blocks mask ns g := by
  induction mask generalizing ns g with
  | nil => cases ns <;> simp [repeatMask, spread, blocks]
  | cons m mask ih =>
    cases ns with
    | nil => simp at hl
    | cons n ns =>
      have hn0 := hn n (by simp)
      have hn' : ∀ k ∈ ns, 0 < k := fun k hk => hn k (List.mem_cons_of_mem _ hk)
      rw [applyMask_cons] at hg ⊢
      cases m with
      | false =>
        simp only [Bool.false_eq_true, if_false, List.nil_append] at hg ⊢
        rw [blocks, ← ih ns g (by simpa using hl) hn' hg]
        have : repeatMask (false :: mask) (n :: ns) = List.replicate n false ++ repeatMask mask ns := by
          simp [repeatMask]
        rw [this, spread_append_false]
      | true =>
        cases g with
        | nil => simp at hg
        | cons x g =>
          simp only [if_true, List.cons_append, List.nil_append, List.length_cons,
            List.zip_cons_cons, List.flatMap_cons] at hg ⊢
          rw [blocks, ← ih ns g (by simpa using hl) hn' (by omega)]
          have : repeatMask (true :: mask) (n :: ns) =
              List.replicate ((x :: List.replicate (n - 1) (-1 : Int)).length) true ++ repeatMask mask ns := by
            simp only [repeatMask, List.zip_cons_cons, List.flatMap_cons, List.length_cons,
              List.length_replicate]
            congr 2; omega
          rw [this]
          exact spread_append_true (x :: List.replicate (n - 1) (-1)) _ _

theorem assemble_eq {union : List Bool} {ns : List Nat} {g : List Int} (hl : union.length = ns.length)
    (hn : ∀ n ∈ ns, 0 < n) (hg : g.length = (flatnonzero union).length) (hne : flatnonzero union ≠ []) :
    assemble union ns g = .ok (blocks union ns g) := by
  have hA : (applyMask union ns).length = (flatnonzero union).length := by
    rw [applyMask_eq_flatnonzero union ns hl 0, List.length_map]
  have hAn : ∀ n ∈ applyMask union ns, 0 < n := fun n hn' => hn n ((applyMask_sublist union ns).subset hn')
  have hAne : applyMask union ns ≠ [] := by
    intro h; rw [h] at hA
    exact hne (List.length_eq_zero_iff.1 hA.symm)
  unfold assemble cumsum
  simp only
  rw [cumsumFrom_dropLast 0 _ hAne]
  set A := applyMask union ns with hAdef
  have hlen : ∀ (s : Nat) (l : List Nat), (startsFrom s l).length = l.length := by
    intro s l; induction l generalizing s with
    | nil => rfl
    | cons a l ih => simp [startsFrom, ih]
  have hlt : ∀ (s : Nat) (l : List Nat), (∀ n ∈ l, 0 < n) → ∀ i ∈ startsFrom s l, i < s + l.sum := by
    intro s l
    induction l generalizing s with
    | nil => intro _ i hi; simp [startsFrom] at hi
    | cons a l ih =>
      intro hp i hi
      have := hp a (by simp)
      rcases List.mem_cons.1 hi with rfl | hi
      · simp; omega
      · have := ih (s + a) (fun n hn => hp n (List.mem_cons_of_mem _ hn)) i hi
        simp; omega
  have h1 : ((startsFrom 0 A).any fun i => decide (A.sum ≤ i)) = false := by
    rw [List.any_eq_false]
    intro i hi
    have := hlt 0 A hAn i hi
    simp; omega
  have h2 : g.length = (startsFrom 0 A).length := by rw [hlen, hg, hA]
  simp only [h1, Bool.false_eq_true, if_false, h2, not_true_eq_false, false_and, if_true, ne_eq]
  have := putIdx_blocks [] A g hAn (by rw [hg, hA])
  simp only [List.nil_append, List.length_nil] at this
  rw [this, spread_blocks union ns g hl hn (by rw [hg, hA])]

/-! ### Positions -/

/-- offset of block `p` -/
def off (ns : List Nat) (p : Nat) : Nat := (ns.take p).sum

theorem blocks_length {mask : List Bool} {ns : List Nat} {g : List Int} (hl : mask.length = ns.length)
    (hn : ∀ n ∈ ns, 0 < n) (hg : g.length = (flatnonzero mask).length) :
    (blocks mask ns g).length = ns.sum := by
  induction mask generalizing ns g with
  | nil => cases ns <;> simp_all [blocks]
  | cons m mask ih =>
    cases ns with
    | nil => simp at hl
    | cons n ns =>
      have hn0 := hn n (by simp)
      have hn' : ∀ k ∈ ns, 0 < k := fun k hk => hn k (List.mem_cons_of_mem _ hk)
      rw [flatnonzero_cons] at hg
      cases m with
      | false =>
        simp only [Bool.false_eq_true, if_false, List.nil_append, List.length_map] at hg
        simp [blocks, ih (by simpa using hl) hn' hg]
      | true =>
        cases g with
        | nil => simp at hg
        | cons x g =>
          simp only [if_true, List.cons_append, List.nil_append, List.length_cons, List.length_map] at hg
          simp [blocks, ih (by simpa using hl) hn' (by omega : g.length = _)]
          omega

theorem blocks_get {mask : List Bool} {ns : List Nat} {g : List Int} (hl : mask.length = ns.length)
    (hn : ∀ n ∈ ns, 0 < n) (hg : g.length = (flatnonzero mask).length) (p : Nat) (hp : p < ns.length) :
    (mask[p]? = some false → ∀ k : Nat, k < ns.getD p 0 → (blocks mask ns g)[off ns p + k]? = some 1) ∧
    (∀ t : Nat, (flatnonzero mask)[t]? = some p → (blocks mask ns g)[off ns p]? = g[t]? ∧
      ∀ k : Nat, 0 < k → k < ns.getD p 0 → (blocks mask ns g)[off ns p + k]? = some (-1)) := by
  induction mask generalizing ns g p with
  | nil => simp at hl; omega
  | cons m mask ih =>
    cases ns with
    | nil => simp at hl
    | cons n ns =>
      have hn0 := hn n (by simp)
      have hn' : ∀ k ∈ ns, 0 < k := fun k hk => hn k (List.mem_cons_of_mem _ hk)
      rw [flatnonzero_cons] at hg ⊢
      cases m with
      | false =>
        simp only [Bool.false_eq_true, if_false, List.nil_append, List.length_map] at hg ⊢
        have IH := ih (by simpa using hl) hn' hg
        simp only [blocks]
        cases p with
        | zero =>
          refine ⟨?_, ?_⟩
          · intro _ k hk
            have hk : k < n := by simpa using hk
            simp [off, List.getElem?_append, hk]
          · intro t ht
            exfalso
            have := List.mem_of_getElem? ht
            simp at this
        | succ p =>
          have hoff : off (n :: ns) (p + 1) = n + off ns p := by simp [off]
          have hget : ∀ k : Nat, (List.replicate n 1 ++ blocks mask ns g)[off (n :: ns) (p + 1) + k]? =
              (blocks mask ns g)[off ns p + k]? := by
            intro k
            rw [List.getElem?_append_right (by simp; omega)]
            congr 1; simp; omega
          have IHp := IH p (by simpa using hp)
          refine ⟨?_, ?_⟩
          · intro hm k hk
            rw [hget]
            exact IHp.1 (by simpa using hm) k (by simpa using hk)
          · intro t ht
            rw [List.getElem?_map] at ht
            have ht' : (flatnonzero mask)[t]? = some p := by
              cases hq : (flatnonzero mask)[t]? with
              | none => rw [hq] at ht; simp at ht
              | some q => rw [hq] at ht; simp at ht; rw [ht]
            obtain ⟨a1, a2⟩ := IHp.2 t ht'
            refine ⟨?_, ?_⟩
            · have := hget 0; simp only [add_zero] at this; rw [this]; exact a1
            · intro k hk1 hk2
              rw [hget]; exact a2 k hk1 (by simpa using hk2)
      | true =>
        cases g with
        | nil => simp at hg
        | cons x g =>
          simp only [if_true, List.cons_append, List.nil_append, List.length_cons, List.length_map] at hg ⊢
          have IH := ih (g := g) (by simpa using hl) hn' (by omega)
          simp only [blocks]
          have hlen1 : (x :: List.replicate (n - 1) (-1 : Int)).length = n := by simp; omega
          cases p with
          | zero =>
            refine ⟨by simp, ?_⟩
            intro t ht
            have ht0 : t = 0 := by
              cases t with
              | zero => rfl
              | succ t => 
                exfalso
                rw [List.getElem?_cons_succ] at ht
                have := List.mem_of_getElem? ht
                simp at this
            subst ht0
            refine ⟨by simp [off], ?_⟩
            intro k hk1 hk2
            have hk2 : k < n := by simpa using hk2
            rw [List.getElem?_append_left (by rw [hlen1]; simp [off]; exact hk2)]
            obtain ⟨k, rfl⟩ : ∃ j, k = j + 1 := ⟨k - 1, by omega⟩
            have hk3 : k < n - 1 := by omega
            simp [off, hk3]
          | succ p =>
            have hoff : off (n :: ns) (p + 1) = n + off ns p := by simp [off]
            have hget : ∀ k : Nat, ((x :: List.replicate (n - 1) (-1)) ++ blocks mask ns g)[off (n :: ns) (p + 1) + k]? =
                (blocks mask ns g)[off ns p + k]? := by
              intro k
              rw [List.getElem?_append_right (by rw [hlen1]; omega)]
              congr 1; rw [hlen1]; omega
            have IHp := IH p (by simpa using hp)
            refine ⟨?_, ?_⟩
            · intro hm k hk
              rw [hget]
              exact IHp.1 (by simpa using hm) k (by simpa using hk)
            · intro t ht
              cases t with
              | zero => simp at ht
              | succ t =>
                rw [List.getElem?_cons_succ, List.getElem?_map] at ht
                have ht' : (flatnonzero mask)[t]? = some p := by
                  cases hq : (flatnonzero mask)[t]? with
                  | none => rw [hq] at ht; simp at ht
                  | some q => rw [hq] at ht; simp at ht; rw [ht]
                obtain ⟨a1, a2⟩ := IHp.2 t ht'
                refine ⟨?_, ?_⟩
                · have := hget 0; simp only [add_zero] at this; rw [this]; simpa using a1
                · intro k hk1 hk2
                  rw [hget]; exact a2 k hk1 (by simpa using hk2)

theorem off_nChanOf {pre : List Int} (h0 : IsStart pre 0) {p : Nat} (hp : p ≤ (groupIdx pre).length) :
    off (nChanOf pre) p = startPos pre p := by
  induction p with
  | zero =>
    obtain ⟨x, y, hxy⟩ := exists_kth h0 (k := 0) (by
      have := mem_groupIdx.2 h0
      exact List.length_pos_of_mem this)
    have := (startPos_kth hxy).1
    have hx : x = 0 := by
      have h2 := kth_start_eq hxy
      have hd := desc_groupIdx h0
      have := hd.last
      rw [List.getLast?_reverse, List.head?_eq_getElem?, h2] at this
      simpa using this
    simp [off, this, hx]
  | succ p ih =>
    have := ih (by omega)
    obtain ⟨x, y, hxy⟩ := exists_kth h0 (k := p) (by omega)
    have h1 := startPos_kth hxy
    have h2 := edges_getElem?_of_kth hxy
    unfold off at *
    have h3 : (nChanOf pre)[p]? = some (y - x) := by
      unfold nChanOf; rw [List.getElem?_map, h2]; rfl
    rw [List.take_add_one, h3, List.sum_append, this, h1.1, h1.2]
    have := hxy.1.1
    simp; omega

theorem nChanOf_pos {pre : List Int} : ∀ n ∈ nChanOf pre, 0 < n := by
  intro n hn
  unfold nChanOf at hn
  obtain ⟨e, he, rfl⟩ := List.mem_map.1 hn
  have := edges_le he
  omega

theorem nChanOf_length (pre : List Int) : (nChanOf pre).length = (groupIdx pre).length := by
  unfold nChanOf; rw [List.length_map, edges_length]

theorem nChanOf_getD {pre : List Int} (h0 : IsStart pre 0) {p : Nat} (hp : p < (groupIdx pre).length) :
    (nChanOf pre).getD p 0 = startPos pre (p + 1) - startPos pre p := by
  obtain ⟨x, y, hxy⟩ := exists_kth h0 hp
  have h1 := startPos_kth hxy
  have h2 := edges_getElem?_of_kth hxy
  unfold nChanOf
  rw [List.getD, List.getElem?_map, h2, h1.1, h1.2]; rfl

/-- The assembled flags: starts of groups, in terms of pre-groups. -/
theorem assemble_starts {pre : List Int} (h0 : IsStart pre 0) {union : List Bool} {g : List Int}
    (hl : union.length = (groupIdx pre).length) (hg : g.length = (flatnonzero union).length)
    (hne : flatnonzero union ≠ []) :
    ∃ final, assemble union (nChanOf pre) g = .ok final ∧ final.length = pre.length ∧
      (∀ p, union[p]? = some false → ∀ i, startPos pre p ≤ i → i < startPos pre (p + 1) →
        IsStart final i) ∧
      ∀ t p, (flatnonzero union)[t]? = some p →
        (IsStart final (startPos pre p) ↔ IsStart g t) ∧
        ∀ i, startPos pre p < i → i < startPos pre (p + 1) → ¬ IsStart final i := by
  have hl' : union.length = (nChanOf pre).length := by rw [nChanOf_length, hl]
  refine ⟨_, assemble_eq hl' nChanOf_pos hg hne, ?_, ?_, ?_⟩
  · rw [blocks_length hl' nChanOf_pos hg]
    have := off_nChanOf h0 (le_refl (groupIdx pre).length)
    unfold off at this
    rw [← nChanOf_length, List.take_length] at this
    rw [this, nChanOf_length]; simp [startPos]
  · intro p hp i h1 h2
    have hpl : p < (groupIdx pre).length := by rw [← hl]; exact (List.getElem?_eq_some_iff.1 hp).1
    have := (blocks_get hl' nChanOf_pos hg p (by rw [nChanOf_length]; exact hpl)).1 hp (i - startPos pre p)
      (by rw [nChanOf_getD h0 hpl]; omega)
    rw [off_nChanOf h0 hpl.le] at this
    exact ⟨1, by rw [← this]; congr 1; omega, by decide⟩
  · intro t p ht
    have hmem := mem_flatnonzero.1 (List.mem_of_getElem? ht)
    have hpl : p < (groupIdx pre).length := by rw [← hl]; exact (List.getElem?_eq_some_iff.1 hmem).1
    have hb := (blocks_get hl' nChanOf_pos hg p (by rw [nChanOf_length]; exact hpl)).2 t ht
    rw [off_nChanOf h0 hpl.le] at hb
    refine ⟨?_, ?_⟩
    · unfold IsStart; rw [hb.1]
    · rintro i h1 h2 ⟨f, hf1, hf2⟩
      have := hb.2 (i - startPos pre p) (by omega) (by rw [nChanOf_getD h0 hpl]; omega)
      rw [show startPos pre p + (i - startPos pre p) = i by omega, hf1] at this
      exact hf2 (by simpa using this)

/-! ### Groups from starts -/

theorem isGroup_iff {flags : List Int} {a b : Nat} : IsGroup flags a b ↔
    a < b ∧ b ≤ flags.length ∧ IsStart flags a ∧ (∀ k, a < k → k < b → ¬ IsStart flags k) ∧
      (b < flags.length → IsStart flags b) := by
  unfold IsGroup
  refine and_congr_right fun h1 => and_congr_right fun h2 => and_congr_right fun h3 =>
    and_congr_left fun h5 => ?_
  refine forall_congr' fun k => forall_congr' fun hk => forall_congr' fun hk2 => ?_
  unfold IsStart
  have hlt : k < flags.length := by omega
  rw [List.getElem?_eq_getElem hlt]
  constructor
  · rintro h ⟨f, hf1, hf2⟩
    rw [h] at hf1; exact hf2 (Option.some.inj hf1).symm
  · intro h
    by_contra hne
    exact h ⟨flags[k], rfl, fun hh => hne (by rw [hh])⟩

theorem isGroup_unique {flags : List Int} {a b c : Nat} (h1 : IsGroup flags a b) (h2 : IsGroup flags a c) :
    b = c := by
  rw [isGroup_iff] at h1 h2
  obtain ⟨p1, p2, p3, p4, p5⟩ := h1
  obtain ⟨q1, q2, q3, q4, q5⟩ := h2
  rcases Nat.lt_trichotomy b c with h | h | h
  · exact absurd (p5 (by omega)) (q4 b p1 h)
  · exact h
  · exact absurd (q5 (by omega)) (p4 c q1 h)

theorem exists_group {flags : List Int} {a : Nat} (h : IsStart flags a) : ∃ b, IsGroup flags a b := by
  have hlt := lt_of_isStart h
  by_cases hex : ∃ b, a < b ∧ b < flags.length ∧ IsStart flags b
  · classical
    obtain ⟨h1, h2, h3⟩ := Nat.find_spec hex
    refine ⟨Nat.find hex, isGroup_iff.2 ⟨h1, h2.le, h, ?_, fun _ => h3⟩⟩
    intro k hk1 hk2 hk3
    exact Nat.find_min hex hk2 ⟨hk1, by omega, hk3⟩
  · refine ⟨flags.length, isGroup_iff.2 ⟨hlt, le_refl _, h, ?_, fun h => absurd h (lt_irrefl _)⟩⟩
    intro k hk1 hk2 hk3
    exact hex ⟨k, hk1, hk2, hk3⟩

/-- position of an entry inside a concatenation, for two families of the same shape -/
theorem flat_pos {α β : Type*} {A : List (List α)} {B : List (List β)}
    (hlen : A.length = B.length) (hsh : ∀ (r : Nat) (a : List α) (b : List β), A[r]? = some a → B[r]? = some b → a.length = b.length) :
    (∀ (r j : Nat) (a : List α) (b : List β), A[r]? = some a → B[r]? = some b → j < a.length →
      ∃ t : Nat, A.flatten[t]? = a[j]? ∧ B.flatten[t]? = b[j]?) ∧ A.flatten.length = B.flatten.length := by
  induction A generalizing B with
  | nil =>
    cases B with
    | nil => simp
    | cons b B => simp at hlen
  | cons a A ih =>
    cases B with
    | nil => simp at hlen
    | cons b B =>
      have hab : a.length = b.length := hsh 0 a b rfl rfl
      obtain ⟨i1, i2⟩ := ih (B := B) (by simpa using hlen)
        (fun r x y hx hy => hsh (r + 1) x y (by simpa using hx) (by simpa using hy))
      refine ⟨?_, by simp [hab, i2]⟩
      intro r j x y hx hy hj
      cases r with
      | zero =>
        simp only [List.getElem?_cons_zero, Option.some.injEq] at hx hy
        subst hx hy
        exact ⟨j, by simp [List.getElem?_append, hj], by simp [List.getElem?_append, hab ▸ hj]⟩
      | succ r =>
        obtain ⟨t, h1, h2⟩ := i1 r j x y (by simpa using hx) (by simpa using hy) hj
        refine ⟨a.length + t, ?_, ?_⟩
        · rw [← h1, List.flatten_cons, List.getElem?_append_right (by omega), Nat.add_sub_cancel_left]
        · rw [← h2, hab, List.flatten_cons, List.getElem?_append_right (by omega), Nat.add_sub_cancel_left]

/-- The noticed pre-groups of each range are consecutive, and the ranges come in channel order. -/
structure Tidy (rows : List (List Bool)) : Prop where
  contiguous : ∀ row ∈ rows, ∀ p q s : Nat, p < q → q < s → row[p]? = some true → row[s]? = some true →
    row[q]? = some true
  ordered : rows.Pairwise fun r r' => ∀ p q : Nat, r[p]? = some true → r'[q]? = some true → p < q

theorem range'_of_contiguous {l : List Nat} (hp : l.Pairwise (· < ·))
    (hc : ∀ p q s, p < q → q < s → p ∈ l → s ∈ l → q ∈ l) :
    ∃ P, l = List.range' P l.length := by
  induction l with
  | nil => exact ⟨0, rfl⟩
  | cons a l ih =>
    obtain ⟨h1, h2⟩ := List.pairwise_cons.1 hp
    obtain ⟨P, hP⟩ := ih h2 (by
      intro p q s hpq hqs hpm hsm
      rcases List.mem_cons.1 (hc p q s hpq hqs (List.mem_cons_of_mem _ hpm) (List.mem_cons_of_mem _ hsm)) with h | h
      · have := h1 p hpm; omega
      · exact h)
    refine ⟨a, ?_⟩
    rw [List.length_cons, List.range'_succ]
    congr 1
    cases l with
    | nil => rfl
    | cons b l =>
      have hPb : b = P := by
        rw [List.length_cons, List.range'_succ] at hP
        exact (List.cons.inj hP).1
      have hab := h1 b (by simp)
      have : b = a + 1 := by
        by_contra hne
        have hm := hc a (a + 1) b (by omega) (by omega) (by simp) (by simp)
        rcases List.mem_cons.1 hm with h | h
        · omega
        · rcases List.mem_cons.1 h with h | h
          · omega
          · have := (List.pairwise_cons.1 h2).1 (a + 1) h; omega
      rw [← hPb, this] at hP
      rw [this]; exact hP

/-- The heart of C17: under `Tidy`, the groups of the assembled flags are the groups of the segments. -/
theorem assemble_groups {pre : List Int} (h0 : IsStart pre 0) {rows : List (List Bool)}
    {union : List Bool} (hu : union.length = (groupIdx pre).length)
    (hrl : ∀ row ∈ rows, row.length = (groupIdx pre).length)
    (hunion : ∀ p : Nat, union[p]? = some true ↔ ∃ row ∈ rows, row[p]? = some true)
    (ht : Tidy rows) {Fs : List (List Int)} (hFl : Fs.length = rows.length)
    (hF : ∀ (r : Nat) (row : List Bool) (F : List Int), rows[r]? = some row → Fs[r]? = some F →
      F.length = (flatnonzero row).length ∧ IsStart F 0) (hne : rows ≠ []) :
    ∃ final, assemble union (nChanOf pre) Fs.flatten = .ok final ∧ final.length = pre.length ∧
      IsStart final 0 ∧
      -- groups of a segment are groups of the result
      (∀ (r : Nat) (row : List Bool) (F : List Int) (P : Nat), rows[r]? = some row → Fs[r]? = some F →
        flatnonzero row = List.range' P F.length → ∀ a b, IsGroup F a b →
          IsGroup final (startPos pre (P + a)) (startPos pre (P + b))) ∧
      -- every other group of the result is a single channel of an un-noticed pre-group
      (∀ x y, IsGroup final x y →
        (∃ (r : Nat) (row : List Bool) (F : List Int) (P a b : Nat), rows[r]? = some row ∧ Fs[r]? = some F ∧
          flatnonzero row = List.range' P F.length ∧ IsGroup F a b ∧
          x = startPos pre (P + a) ∧ y = startPos pre (P + b)) ∨
        (y = x + 1 ∧ ∃ p, union[p]? = some false ∧ startPos pre p ≤ x ∧ x < startPos pre (p + 1))) := by
  set Ns := rows.map flatnonzero with hNs
  have hshape : ∀ (r : Nat) (a : List Int) (b : List Nat), Fs[r]? = some a → Ns[r]? = some b → a.length = b.length := by
    intro r a b ha hb
    rw [hNs, List.getElem?_map] at hb
    cases hr : rows[r]? with
    | none => rw [hr] at hb; simp at hb
    | some row =>
      rw [hr] at hb
      simp only [Option.map_some, Option.some.injEq] at hb
      rw [← hb]; exact (hF r row a hr ha).1
  obtain ⟨hpos, hflen⟩ := flat_pos (A := Fs) (B := Ns) (by rw [hFl, hNs, List.length_map]) hshape
  have hNu : flatnonzero union = Ns.flatten := by
    apply List.Pairwise.eq_of_mem_iff (r := (· < ·)) (flatnonzero_pairwise union)
    · rw [List.pairwise_flatten]
      refine ⟨?_, ?_⟩
      · intro l hl
        rw [hNs] at hl
        obtain ⟨row, _, rfl⟩ := List.mem_map.1 hl
        exact flatnonzero_pairwise row
      · rw [hNs, List.pairwise_map]
        refine ht.ordered.imp ?_
        intro r r' h x hx y hy
        exact h x y (mem_flatnonzero.1 hx) (mem_flatnonzero.1 hy)
    · intro p
      rw [mem_flatnonzero, hunion, List.mem_flatten]
      constructor
      · rintro ⟨row, h1, h2⟩
        exact ⟨flatnonzero row, List.mem_map.2 ⟨row, h1, rfl⟩, mem_flatnonzero.2 h2⟩
      · rintro ⟨l, hl, hp⟩
        obtain ⟨row, h1, rfl⟩ := List.mem_map.1 hl
        exact ⟨row, h1, mem_flatnonzero.1 hp⟩
  -- some pre-group is noticed
  have hNne : flatnonzero union ≠ [] := by
    obtain ⟨row, hrow⟩ : ∃ row, rows[0]? = some row := by
      cases rows with
      | nil => exact absurd rfl hne
      | cons row rs => exact ⟨row, rfl⟩
    obtain ⟨F, hF0⟩ : ∃ F, Fs[0]? = some F := by
      cases Fs with
      | nil => exact absurd (List.length_eq_zero_iff.1 hFl.symm) hne
      | cons F fs => exact ⟨F, rfl⟩
    have := hF 0 row F hrow hF0
    have h1 := lt_of_isStart this.2
    rw [this.1] at h1
    intro hh
    have hmem := List.getElem_mem h1
    have h2 := (hunion _).2 ⟨row, List.mem_of_getElem? hrow, mem_flatnonzero.1 hmem⟩
    have h3 := mem_flatnonzero.2 h2
    rw [hh] at h3; simp at h3
  obtain ⟨final, f1, f2, f3, f4⟩ := assemble_starts h0 hu (g := Fs.flatten) (by rw [hNu, hflen]) hNne
  refine ⟨final, f1, f2, ?_⟩
  -- starts inside a segment
  have hseg : ∀ (r : Nat) (row : List Bool) (F : List Int) (P : Nat), rows[r]? = some row → Fs[r]? = some F →
      flatnonzero row = List.range' P F.length → ∀ j, j < F.length →
        (IsStart final (startPos pre (P + j)) ↔ IsStart F j) ∧
        (∀ i, startPos pre (P + j) < i → i < startPos pre (P + j + 1) → ¬ IsStart final i) ∧
        P + j < (groupIdx pre).length := by
    intro r row F P hr hf hN j hj
    obtain ⟨t, ht1, ht2⟩ := hpos r j F (flatnonzero row) hf (by rw [hNs, List.getElem?_map, hr]; rfl) hj
    have hNj : (flatnonzero row)[j]? = some (P + j) := by
      rw [hN, List.getElem?_range' hj]; simp
    rw [hNj] at ht2
    rw [← hNu] at ht2
    obtain ⟨g1, g2⟩ := f4 t (P + j) ht2
    refine ⟨?_, g2, ?_⟩
    · rw [g1]; unfold IsStart; rw [ht1]
    · have h1 := mem_flatnonzero.1 (List.mem_of_getElem? ht2)
      rw [← hu]; exact (List.getElem?_eq_some_iff.1 h1).1
  -- the range form of each row
  have hrange : ∀ row ∈ rows, ∃ P, flatnonzero row = List.range' P (flatnonzero row).length := by
    intro row hrow
    apply range'_of_contiguous (flatnonzero_pairwise row)
    intro p q s h1 h2 h3 h4
    rw [mem_flatnonzero] at *
    exact ht.contiguous row hrow p q s h1 h2 h3 h4
  have hsp : ∀ p q, p < q → q ≤ (groupIdx pre).length → startPos pre p < startPos pre q :=
    fun p q h1 h2 => startPos_strictMono h1 h2
  -- a pre-group that is noticed but whose predecessor is not in the same row starts a group
  have hnext : ∀ (r : Nat) (row : List Bool) (F : List Int) (P : Nat), rows[r]? = some row → Fs[r]? = some F →
      flatnonzero row = List.range' P F.length → P + F.length < (groupIdx pre).length →
      IsStart final (startPos pre (P + F.length)) := by
    intro r row F P hr hf hN hlt
    cases hm : union[P + F.length]? with
    | none => rw [List.getElem?_eq_none_iff] at hm; omega
    | some v =>
      cases v with
      | false =>
        exact f3 _ hm _ (le_refl _) (hsp _ _ (by omega) (by omega))
      | true =>
        obtain ⟨row', hr'm, hp'⟩ := (hunion _).1 hm
        obtain ⟨r', hr'⟩ := List.mem_iff_getElem?.1 hr'm
        obtain ⟨F', hf'⟩ : ∃ F', Fs[r']? = some F' := by
          have : r' < Fs.length := by rw [hFl]; exact (List.getElem?_eq_some_iff.1 hr').1
          exact ⟨_, List.getElem?_eq_getElem this⟩
        obtain ⟨P', hP'⟩ := hrange row' hr'm
        have hFl' := hF r' row' F' hr' hf'
        rw [← hFl'.1] at hP'
        have hmem := mem_flatnonzero.2 hp'
        rw [hP', List.mem_range'_1] at hmem
        have hFpos := lt_of_isStart (hF r row F hr hf).2
        have hlast : row[P + F.length - 1]? = some true := by
          rw [← mem_flatnonzero, hN, List.mem_range'_1]; omega
        -- the rows differ
        have hrr : r < r' := by
          rcases Nat.lt_trichotomy r r' with h | h | h
          · exact h
          · exfalso
            subst h
            rw [hr] at hr'
            obtain rfl := Option.some.inj hr'
            have := mem_flatnonzero.2 hp'
            rw [hN, List.mem_range'_1] at this
            omega
          · exfalso
            have h1 := (List.getElem?_eq_some_iff.1 hr').1
            have h2 := (List.getElem?_eq_some_iff.1 hr).1
            have := List.pairwise_iff_getElem.1 ht.ordered r' r h1 h2 h (P + F.length) (P + F.length - 1)
              (by rw [(List.getElem?_eq_some_iff.1 hr').2]; exact hp')
              (by rw [(List.getElem?_eq_some_iff.1 hr).2]; exact hlast)
            omega
        have hP'eq : P' = P + F.length := by
          by_contra hne'
          have hin : row'[P + F.length - 1]? = some true := by
            rw [← mem_flatnonzero, hP', List.mem_range'_1]; omega
          have h1 := (List.getElem?_eq_some_iff.1 hr').1
          have h2 := (List.getElem?_eq_some_iff.1 hr).1
          have := List.pairwise_iff_getElem.1 ht.ordered r r' h2 h1 hrr (P + F.length - 1) (P + F.length - 1)
              (by rw [(List.getElem?_eq_some_iff.1 hr).2]; exact hlast)
              (by rw [(List.getElem?_eq_some_iff.1 hr').2]; exact hin)
          omega
        have := (hseg r' row' F' P' hr' hf' hP' 0 (lt_of_isStart hFl'.2)).1
        rw [add_zero, hP'eq] at this
        exact this.2 hFl'.2
  have hforward : ∀ (r : Nat) (row : List Bool) (F : List Int) (P : Nat), rows[r]? = some row → Fs[r]? = some F →
        flatnonzero row = List.range' P F.length → ∀ a b, IsGroup F a b →
          IsGroup final (startPos pre (P + a)) (startPos pre (P + b)) := by
    intro r row F P hr hf hN a b hab
    rw [isGroup_iff] at hab
    obtain ⟨k1, k2, k3, k4, k5⟩ := hab
    have hb : P + b ≤ (groupIdx pre).length := by
      have := (hseg r row F P hr hf hN (b - 1) (by omega)).2.2
      omega
    rw [isGroup_iff]
    refine ⟨hsp _ _ (by omega) hb, ?_, (hseg r row F P hr hf hN a (by omega)).1.2 k3, ?_, ?_⟩
    · rw [f2]
      rcases Nat.lt_or_ge (P + b) (groupIdx pre).length with h | h
      · obtain ⟨x, y, hxy⟩ := exists_kth h0 h
        rw [(startPos_kth hxy).1]; have := hxy.1.1; have := hxy.1.2.1; omega
      · simp [startPos, List.getD, List.getElem?_eq_none h]
    · -- channels in between
      have hcov : ∀ d, a + d < b → ∀ i, startPos pre (P + a) < i → i < startPos pre (P + a + d + 1) →
          ¬ IsStart final i := by
        intro d
        induction d with
        | zero =>
          intro hd i h1 h2
          exact (hseg r row F P hr hf hN a (by omega)).2.1 i h1 h2
        | succ d ih =>
          intro hd i h1 h2
          have hs := hseg r row F P hr hf hN (a + (d + 1)) (by omega)
          rcases Nat.lt_trichotomy i (startPos pre (P + a + d + 1)) with h | h | h
          · exact ih (by omega) i h1 h
          · rw [h]
            have he : P + a + d + 1 = P + (a + (d + 1)) := by omega
            rw [he, hs.1]
            exact k4 _ (by omega) hd
          · exact hs.2.1 i (by rw [show P + (a + (d + 1)) = P + a + d + 1 by omega]; exact h)
              (by rw [show P + (a + (d + 1)) + 1 = P + a + (d + 1) + 1 by omega]; exact h2)
      intro i h1 h2
      exact hcov (b - a - 1) (by omega) i h1 (by rw [show P + a + (b - a - 1) + 1 = P + b by omega]; exact h2)
    · intro hlt
      rcases Nat.lt_or_ge b F.length with h | h
      · exact (hseg r row F P hr hf hN b h).1.2 (k5 h)
      · have : b = F.length := by omega
        subst this
        apply hnext r row F P hr hf hN
        by_contra hge
        have : startPos pre (P + F.length) = pre.length := by
          simp [startPos, List.getD, List.getElem?_eq_none (not_lt.1 hge)]
        rw [f2] at hlt; omega
  have hzero : startPos pre 0 = 0 := by
    rw [← off_nChanOf h0 (Nat.zero_le _)]; simp [off]
  have hg0 : 0 < (groupIdx pre).length := List.length_pos_of_mem (mem_groupIdx.2 h0)
  have hstart0 : IsStart final 0 := by
    cases hm : union[0]? with
    | none => rw [List.getElem?_eq_none_iff] at hm; omega
    | some v =>
      cases v with
      | false =>
        have := f3 0 hm 0 (by omega) (by have := hsp 0 1 (by omega) (by omega); rw [hzero] at this; exact this)
        exact this
      | true =>
        obtain ⟨row, hrm, hp'⟩ := (hunion _).1 hm
        obtain ⟨r, hr⟩ := List.mem_iff_getElem?.1 hrm
        obtain ⟨F, hf⟩ : ∃ F, Fs[r]? = some F := by
          have : r < Fs.length := by rw [hFl]; exact (List.getElem?_eq_some_iff.1 hr).1
          exact ⟨_, List.getElem?_eq_getElem this⟩
        obtain ⟨P, hP⟩ := hrange row hrm
        rw [← (hF r row F hr hf).1] at hP
        have hmem := mem_flatnonzero.2 hp'
        rw [hP, List.mem_range'_1] at hmem
        have hP0 : P = 0 := by omega
        have := (hseg r row F P hr hf hP 0 (by omega)).1.2 (hF r row F hr hf).2
        rw [hP0, Nat.add_zero, hzero] at this
        exact this
  refine ⟨hstart0, hforward, ?_⟩
  intro x y hxy
  have hx := (isGroup_iff.1 hxy).2.2.1
  have hxlt : x < pre.length := by rw [← f2]; exact lt_of_isStart hx
  -- the pre-group of x
  obtain ⟨p, hp1, hp2, hp3⟩ : ∃ p, p < (groupIdx pre).length ∧ startPos pre p ≤ x ∧
      x < startPos pre (p + 1) := by
    have hend : startPos pre (groupIdx pre).length = pre.length := by simp [startPos]
    have hzero : startPos pre 0 = 0 := by
      rw [← off_nChanOf h0 (Nat.zero_le _)]; simp [off]
    have : ∀ m, m ≤ (groupIdx pre).length → x < startPos pre m → ∃ p, p < m ∧ startPos pre p ≤ x ∧
      x < startPos pre (p + 1) := by
      intro m
      induction m with
      | zero => intro _ h; rw [hzero] at h; omega
      | succ m ih =>
        intro hm h
        by_cases h' : x < startPos pre m
        · obtain ⟨p, a1, a2⟩ := ih (by omega) h'
          exact ⟨p, by omega, a2⟩
        · exact ⟨m, by omega, by omega, h⟩
    exact this _ (le_refl _) (by rw [hend]; exact hxlt)
  cases hm : union[p]? with
  | none => rw [List.getElem?_eq_none_iff] at hm; omega
  | some v =>
    cases v with
    | true =>
      left
      obtain ⟨row, hrm, hp'⟩ := (hunion _).1 hm
      obtain ⟨r, hr⟩ := List.mem_iff_getElem?.1 hrm
      obtain ⟨F, hf⟩ : ∃ F, Fs[r]? = some F := by
        have : r < Fs.length := by rw [hFl]; exact (List.getElem?_eq_some_iff.1 hr).1
        exact ⟨_, List.getElem?_eq_getElem this⟩
      obtain ⟨P, hP⟩ := hrange row hrm
      rw [← (hF r row F hr hf).1] at hP
      have hmem := mem_flatnonzero.2 hp'
      rw [hP, List.mem_range'_1] at hmem
      have hs := hseg r row F P hr hf hP (p - P) (by omega)
      rw [show P + (p - P) = p by omega] at hs
      have hxp : x = startPos pre p := by
        by_contra hne'
        exact hs.2.1 x (by omega) hp3 hx
      have hst := hs.1.1 (hxp ▸ hx)
      obtain ⟨b, hb⟩ := exists_group hst
      have hfw := hforward r row F P hr hf hP _ _ hb
      rw [show P + (p - P) = p by omega, ← hxp] at hfw
      refine ⟨r, row, F, P, p - P, b, hr, hf, hP, hb, by rw [show P + (p - P) = p by omega]; exact hxp,
        isGroup_unique hxy hfw⟩
    | false =>
      right
      refine ⟨?_, p, hm, hp2, hp3⟩
      have hx1 : x + 1 < final.length → IsStart final (x + 1) := by
        intro hlt
        rcases Nat.lt_or_ge (x + 1) (startPos pre (p + 1)) with h | h
        · exact f3 p hm (x + 1) (by omega) h
        · have hxe : x + 1 = startPos pre (p + 1) := by omega
          rw [hxe]
          have hp1' : p + 1 < (groupIdx pre).length := by
            by_contra hge
            have : startPos pre (p + 1) = pre.length := by
              simp [startPos, List.getD, List.getElem?_eq_none (not_lt.1 hge)]
            rw [f2] at hlt; omega
          cases hm' : union[p + 1]? with
          | none => rw [List.getElem?_eq_none_iff] at hm'; omega
          | some v =>
            cases v with
            | false => exact f3 _ hm' _ (le_refl _) (hsp _ _ (by omega) (by omega))
            | true =>
              obtain ⟨row, hrm, hp'⟩ := (hunion _).1 hm'
              obtain ⟨r, hr⟩ := List.mem_iff_getElem?.1 hrm
              obtain ⟨F, hf⟩ : ∃ F, Fs[r]? = some F := by
                have : r < Fs.length := by rw [hFl]; exact (List.getElem?_eq_some_iff.1 hr).1
                exact ⟨_, List.getElem?_eq_getElem this⟩
              obtain ⟨P, hP⟩ := hrange row hrm
              rw [← (hF r row F hr hf).1] at hP
              have hmem := mem_flatnonzero.2 hp'
              rw [hP, List.mem_range'_1] at hmem
              have hPe : P = p + 1 := by
                by_contra hne'
                have : row[p]? = some true := by
                  rw [← mem_flatnonzero, hP, List.mem_range'_1]; omega
                have := (hunion p).2 ⟨row, hrm, this⟩
                rw [hm] at this; simp at this
              have hs := hseg r row F P hr hf hP 0 (by omega)
              rw [add_zero, hPe] at hs
              exact hs.1.2 (hF r row F hr hf).2
      rw [isGroup_iff] at hxy
      obtain ⟨k1, k2, k3, k4, k5⟩ := hxy
      by_contra hne'
      exact k4 (x + 1) (by omega) (by omega) (hx1 (by omega))

end Elisa.Data
