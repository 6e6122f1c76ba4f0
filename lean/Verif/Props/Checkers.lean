import Verif.Proofs.Checkers
import Verif.Props.Traits

/-! # Property C98: the method checkers are named after what they check -/

namespace Utils.Props

open Utils.Traits Utils.Spec

variable {τ : Type} [DecidableEq τ]

/-- For each of the 24 combinations of qualifiers there is a checker whose name ends in them.  It is
true iff the class has a method that is not static, with exactly that return type, those parameters
and those qualifiers; one that is `noexcept` also passes without `_noexcept`. -/
theorem C98_checker {l : List (Bool × Fn τ)} (hl : WellFormed l) (method : String) (q : Quals) (ret : τ)
    (params : List τ) :
    ∃ b, askMethod method (checkerName method q) (.functions l) ret params = some b ∧
      (b = true ↔ ∃ f, (false, f) ∈ l ∧ Fits f ⟨ret, params, false, q⟩) := by
  refine ⟨hasInvocableR (.functions l) ⟨ret, params, false, q⟩, ?_, C74_method hl _⟩
  unfold askMethod methodCheckers checkerName
  rw [lookup_affix ("has_invocable_r_" ++ method) "_v" SymRow.suffix, lookup_symRows]
  rfl

example : askMethod "size" "has_invocable_r_size_volatile_rref_noexcept_v" (.functions exOverloads) "int"
      ["char", "long"] = some true ∧
    askMethod "size" "has_invocable_r_size_volatile_rref_v" (.functions exOverloads) "int"
      ["char", "long"] = some true ∧
    askMethod "size" "has_invocable_r_size_const_v" (.functions exOverloads) "int"
      ["char", "long"] = some false := by
  decide +kernel

/-- There is no other checker, and each name stands for one combination. -/
theorem C98_names (method c : String) (m : Member τ) (ret : τ) (params : List τ) :
    ((askMethod method c m ret params).isSome = true ↔ ∃ q, c = checkerName method q) ∧
    ∀ q q', checkerName method q = checkerName method q' → q = q' := by
  refine ⟨⟨fun h => ?_, ?_⟩, fun q q' h => ?_⟩
  · unfold askMethod at h
    rw [Option.isSome_map] at h
    obtain ⟨q, hq⟩ := Option.isSome_iff_exists.1 h
    obtain ⟨p, hp, -⟩ := Option.bind_eq_some_iff.1 hq
    exact (mem_methodCheckers ..).1 ⟨p, lookup_mem hp⟩
  · rintro ⟨q, rfl⟩
    unfold askMethod methodCheckers checkerName
    rw [lookup_affix ("has_invocable_r_" ++ method) "_v" SymRow.suffix, lookup_symRows]
    rfl
  · exact ending_injective (append_cancel_left.1 (append_cancel_right.1 h))

example : askMethod "size" "has_invocable_r_size_volatile_const_v" (.functions exOverloads) "int" []
    = none := by decide +kernel

/-- The checkers of static methods: one for `noexcept`, one without. -/
theorem C98_static {l : List (Bool × Fn τ)} (hl : WellFormed l) (method : String) (n : Bool) (ret : τ)
    (params : List τ) :
    ∃ b, askStaticMethod method (staticCheckerName method n) (.functions l) ret params = some b ∧
      (b = true ↔ ∃ f, (true, f) ∈ l ∧ Fits f ⟨ret, params, false, { isNoexcept := n }⟩) := by
  refine ⟨hasStaticInvocableR (.functions l) ⟨ret, params, false, { isNoexcept := n }⟩, ?_,
    C74_static_method hl _⟩
  unfold askStaticMethod staticMethodCheckers staticCheckerName
  rw [lookup_affix ("has_static_invocable_r_" ++ method) "_v" (fun row : String × String => row.1),
    lookup_staticRows]
  rfl

example : askStaticMethod "make" "has_static_invocable_r_make_noexcept_v"
    (.functions [(true, ⟨"int", [], false, { isNoexcept := true }⟩)]) "int" [] = some true := by
  decide +kernel

/-- The checkers of two methods have a name in common, so that they cannot be created in the same
scope, iff one method is named like the other with an ending for some qualifiers. -/
theorem C98_clash {a b : String} (h : a ≠ b) :
    (∃ c p p', (c, p) ∈ methodCheckers a ∧ (c, p') ∈ methodCheckers b) ↔
      ∃ q, q ≠ {} ∧ (b = a ++ ending q ∨ a = b ++ ending q) := by
  have key : (∃ c p p', (c, p) ∈ methodCheckers a ∧ (c, p') ∈ methodCheckers b) ↔
      ∃ q q', checkerName a q = checkerName b q' := by
    constructor
    · rintro ⟨c, p, p', h1, h2⟩
      obtain ⟨q, hq⟩ := (mem_methodCheckers ..).1 ⟨p, h1⟩
      obtain ⟨q', hq'⟩ := (mem_methodCheckers ..).1 ⟨p', h2⟩
      exact ⟨q, q', hq.symm.trans hq'⟩
    · rintro ⟨q, q', e⟩
      obtain ⟨p, hp⟩ := (mem_methodCheckers ..).2 ⟨q, rfl⟩
      obtain ⟨p', hp'⟩ := (mem_methodCheckers ..).2 ⟨q', rfl⟩
      exact ⟨_, p, p', hp, e ▸ hp'⟩
  rw [key]
  constructor
  · rintro ⟨q, q', e⟩
    have e1 := append_cancel_right.1 e
    rw [String.append_assoc, String.append_assoc] at e1
    obtain ⟨r, hr⟩ := append_ending (append_cancel_left.1 e1)
    refine ⟨r, fun h0 => ?_, hr⟩
    have e0 : ending {} = "" := by decide +kernel
    rw [h0, e0, String.append_empty, String.append_empty] at hr
    exact hr.elim (fun e => h e.symm) h
  · rintro ⟨q, -, rfl | rfl⟩
    · exact ⟨q, {}, checkerName_ending a q⟩
    · exact ⟨{}, q, (checkerName_ending b q).symm⟩

/-- `CREATE_R_METHOD_CHECKERS(get)` and `CREATE_R_METHOD_CHECKERS(get_ref)` both define
`has_invocable_r_get_ref_v`, with different meanings. -/
theorem C98_clash_witness :
    ("has_invocable_r_get_ref_v", "method_pointer_ref") ∈ methodCheckers "get" ∧
    ("has_invocable_r_get_ref_v", "method_pointer") ∈ methodCheckers "get_ref" := by
  decide +kernel

example : ∃ c p p', (c, p) ∈ methodCheckers "get" ∧ (c, p') ∈ methodCheckers "get_ref" :=
  (C98_clash (by decide)).2 ⟨{ ref := .lvalue }, by decide, .inl (by decide +kernel)⟩

end Utils.Props
