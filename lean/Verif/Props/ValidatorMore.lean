import Verif.Model.ValidatorMore
import Verif.Props.Validator

/-!
# C112: validation of objects with additional properties

The values of additional properties are never validated: exact when nothing is declared for them, and wrong for each value that
breaks a declared constraint.
-/

namespace Verif.Validator

/-- The properties conform, and so does each additional value. -/
def ConformsMore (s : MoreSch) (v : MoreV) : Prop :=
  ConformsF s.fields v.fields ∧ ∀ e ∈ v.more, Meets s.decl e.2 ∧ Conforms s.elem e.2

/-- The values are of the generated types. -/
def TypedMore (s : MoreSch) (v : MoreV) : Prop := TypedF s.fields v.fields ∧ ∀ e ∈ v.more, Typed s.elem e.2

theorem both_pass_right (r : Res) : r.both .pass = r := by cases r <;> rfl

theorem runMore_eq (s : MoreSch) (v : MoreV) : runMore s v = runStruct s.fields v.fields := both_pass_right _

/-- Partial: exact when the document declares nothing for the additional properties, and never a panic. -/
theorem C112_more_partial (s : MoreSch) (h : s.fields.Fine) (hd : s.decl.Free) (he : s.elem.Free) (v : MoreV)
    (ht : TypedMore s v) : runMore s v ≠ .panic ∧ (runMore s v = .pass ↔ ConformsMore s v) := by
  rw [runMore_eq]
  obtain ⟨h1, h2⟩ := C112_exact_partial s.fields h v.fields ht.1
  refine ⟨h1, h2.trans ⟨fun c => ⟨c, fun e m => ⟨free_meets hd _, free_conforms _ he _ (ht.2 e m)⟩⟩, fun c => c.1⟩⟩

/-- A required text of two characters at least, and any further numbers. -/
def sampleMore : MoreSch := ⟨.cons { required := true, minLength := some 2 } .str .nil, {}, .num⟩

example : runMore sampleMore ⟨[.str "ab".toList], [("x".toList, .flt 1)]⟩ = .pass ∧
    runMore sampleMore ⟨[.str "a".toList], [("x".toList, .flt 1)]⟩ = .fail ∧
    sampleMore.decl.Free ∧ sampleMore.elem.Free := ⟨by decide +kernel, by decide +kernel, .inl rfl, trivial⟩

example : sampleMore.fields.Fine := by
  simp [sampleMore, Flds.Fine, Fits, Sch.Fine]

/-- A conforming value is accepted, whatever is declared for the additional properties. -/
theorem C112_more_accepts_partial (s : MoreSch) (h : s.fields.Fine) (v : MoreV) (ht : TypedF s.fields v.fields)
    (hc : ConformsMore s v) : runMore s v = .pass := by
  rw [runMore_eq]
  exact (C112_exact_partial s.fields h v.fields ht).2.2 hc.1

/-- Violated by every additional value that breaks its constraints: the structure is accepted all the same. -/
theorem C112_violated_additional (s : MoreSch) (h : s.fields.Fine) (v : MoreV) (ht : TypedF s.fields v.fields)
    (hc : ConformsF s.fields v.fields) (k : Str) (x : GoV) (hx : ¬ Meets s.decl x) :
    runMore s ⟨v.fields, (k, x) :: v.more⟩ = .pass ∧ ¬ ConformsMore s ⟨v.fields, (k, x) :: v.more⟩ := by
  refine ⟨?_, fun c => hx (c.2 _ List.mem_cons_self).1⟩
  rw [runMore_eq]
  exact (C112_exact_partial s.fields h v.fields ht).2.2 hc

/-- An additional integer of 9 where at most 5 is declared. -/
example : runMore ⟨.nil, { maximum := some 5 }, .int⟩ ⟨[], [("a".toList, .int 9)]⟩ = .pass ∧
    ¬ Meets { maximum := some 5 } (.int 9) := by
  refine ⟨by decide, fun h => ?_⟩
  have := h.2.1 5 rfl
  omega

end Verif.Validator
