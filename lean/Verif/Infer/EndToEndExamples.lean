import Verif.Infer.EndToEndProps
import Verif.Data.LoadExamples

/-!
# A case that meets the hypotheses of C97
-/

namespace Elisa.Infer

open Elisa Elisa.Grouping Elisa.Data

theorem slice_mem {A : Type} {rows : List A} {i : Int} {p : A} (h : p ∈ sliceOne rows i) : p ∈ rows :=
  List.mem_of_mem_take (List.mem_of_mem_drop h)

theorem exFiles_poisson {f : Path} {t : SpecFile} {id : Option Int} {r : PhaRow} (h : exFiles.spec f = some t) (hr : t.row id = .ok r) :
    r.pha.poisserr = some true := by
  have key : (∃ p, t.content = .inl p ∧ p.pha.poisserr = some true) ∨ ∃ rows, t.content = .inr rows ∧ ∀ p ∈ rows, p.pha.poisserr = some true := by
    simp only [exFiles] at h
    split_ifs at h
    · cases h
      right
      refine ⟨_, rfl, ?_⟩
      intro p hp
      simp only [List.mem_cons, List.not_mem_nil, or_false] at hp
      rcases hp with rfl | rfl <;> rfl
    · cases h
      exact .inl ⟨_, rfl, rfl⟩
  rcases key with ⟨p, hc, hp⟩ | ⟨rows, hc, hp⟩
  · cases id with
    | none => rw [((C96_row t).2.2.1 p hc r).1 hr |>.1]; exact hp
    | some n => rw [(C96_row t).2.2.2 p hc n] at hr; cases hr
  · cases id with
    | none => rw [(C96_row t).2.1 rows hc] at hr; cases hr
    | some n =>
      simp only [SpecFile.row, hc] at hr
      cases hs : sliceOne rows (n - 1) with
      | nil => rw [hs] at hr; cases hr
      | cons q qs =>
        rw [hs] at hr
        cases hr
        exact hp r (slice_mem (by rw [hs]; simp))

/-- The data set of the example of C96, all channels put in one group after a change of the energy ranges, can be fitted with `wstat`; its matrix is encoded in
the file. -/
example : ∃ d, ∀ flux, let m : Member := ⟨exArgs, d, [.setErange [(0.5, 4)], .setGrouping (some [1, -1])], .wstat, flux⟩
    loadData exInt exFiles m.args = .ok m.data ∧ checkStat m.fitData m.stat = .ok () := by
  obtain ⟨d, row, hd, hread, hc, hb, -⟩ := exLoad
  refine ⟨d, fun flux => ⟨hd, ?_⟩⟩
  rw [(C43_check _ _).1]
  obtain ⟨S, n, F⟩ := load_facts hd
  obtain ⟨row', e1, ⟨f, id, t, -, ht, hr⟩, hback, -, -⟩ := F.srcs.named
  have hp : d.obs.spec.poisson = true := by
    have := ((C58_spectrum S.src exArgs.specPoisson).2.2.2 _ F.src).1
    rw [e1] at this
    rcases this with h | ⟨h, -⟩
    · rw [exFiles_poisson ht hr] at h; exact (Option.some.inj h).symm
    · rw [exFiles_poisson ht hr] at h; cases h
  rcases F.back with ⟨-, hn⟩ | ⟨p, s, hbp, hbs, hread'⟩
  · exact absurd hn hb
  have hpb : s.poisson = true := by
    have := ((C58_spectrum p exArgs.backPoisson).2.2.2 _ hread').1
    rcases hback with ⟨-, hn⟩ | ⟨bp, f2, id2, t2, br, -, -, ht2, hr2, hbr⟩
    · rw [hn] at hbp; cases hbp
    · rw [hbr] at hbp
      cases hbp
      rcases this with h | ⟨h, -⟩
      · rw [exFiles_poisson ht2 hr2] at h; exact (Option.some.inj h).symm
      · rw [exFiles_poisson ht2 hr2] at h; cases h
  generalize hm : ({ args := exArgs, data := d, uses := [.setErange [(0.5, 4)], .setGrouping (some [1, -1])], stat := .wstat, flux := flux } : Member) = m
  have hdm : m.data = d := by rw [← hm]
  have hsm : m.stat = .wstat := by rw [← hm]
  have hcons : m.obj.Consistent d.obs n := by
    show (useAll m.data.obs m.data.obj m.uses).Consistent d.obs n
    rw [hdm]
    exact useAll_consistent F.legal F.cons m.uses
  obtain ⟨st, L, h1, h2, h3⟩ := C16_net_spectrum d.obs n F.legal m.obj.erange m.obj.st.grouping hcons.len
  rw [hcons.data] at h1
  obtain rfl := Except.ok.inj h1
  rw [hsm]
  refine ⟨by show m.data.obs.spec.poisson = true; rw [hdm]; exact hp, ?_, ?_⟩
  · have := (h3.withBack s hbs).1
    exact ⟨_, by show m.obj.st.back.map _ = _; rw [this]; rfl⟩
  · show (m.data.obs.back.map (·.poisson)).getD false = true
    rw [hdm, hbs]
    exact hpb

example : Encodes ((exRmf.tlmin).getD 1) 2 ⟨1, [1], [2], [1, 1]⟩ (fun c => ([1, 1] : List ℝ).getD c 0) := C20_encodable 1 [1, 1] [] [] []

end Elisa.Infer
