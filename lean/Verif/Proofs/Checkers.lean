import Verif.Spec.Checkers

/-! # Lemmas for C98 -/

namespace Utils.Traits

open Utils.Spec

theorem append_cancel_left {a b c : String} : a ++ b = a ++ c ↔ b = c := by
  simp [← String.toList_inj]

theorem append_cancel_right {a b c : String} : b ++ a = c ++ a ↔ b = c := by
  simp [← String.toList_inj]

theorem lookup_affix {α β : Type} [DecidableEq α] (pre post : String) (name : β → String) (g : β → α)
    (l : List β) (s : String) :
    lookup (l.map fun x => (pre ++ name x ++ post, g x)) (pre ++ s ++ post) =
      lookup (l.map fun x => (name x, g x)) s := by
  have h : ∀ l : List β, ((l.map fun x => (pre ++ name x ++ post, g x)).filter
        fun d => d.1 == pre ++ s ++ post).map (·.2) =
      ((l.map fun x => (name x, g x)).filter fun d => d.1 == s).map (·.2) := by
    intro l
    induction l with
    | nil => rfl
    | cons x l ih =>
      by_cases hx : name x = s
      · subst hx
        simp only [List.map_cons, List.filter_cons, beq_self_eq_true, if_true, List.map_cons, ih]
      · have : pre ++ name x ++ post ≠ pre ++ s ++ post := by
          rw [Ne, append_cancel_right, append_cancel_left]; exact hx
        simp only [List.map_cons, List.filter_cons, beq_iff_eq, if_neg hx, if_neg this, ih]
  unfold lookup
  rw [h]

theorem lookup_mem {α : Type} [DecidableEq α] {defs : List (String × α)} {name : String} {a : α}
    (h : lookup defs name = some a) : (name, a) ∈ defs := by
  unfold lookup at h
  split at h
  · cases h
  · rename_i d ds he
    split at h
    · cases h
      have : a ∈ (defs.filter fun d => d.1 == name).map (·.2) := by rw [he]; simp
      simp only [List.mem_map, List.mem_filter, beq_iff_eq] at this
      obtain ⟨⟨x, y⟩, ⟨h1, h2⟩, h3⟩ := this
      cases h2; cases h3; exact h1
    · cases h

theorem lookup_symRows (q : Quals) :
    (lookup (symRows.map fun row => (row.suffix, "method_pointer" ++ row.suffix)) (ending q)).bind
      (lookup methodPointers) = some q := by
  obtain ⟨c, v, r, n⟩ := q
  cases c <;> cases v <;> cases r <;> cases n <;> decide +kernel

theorem lookup_staticRows (n : Bool) :
    (lookup (staticRows.map fun row => (row.1, "static_method_pointer" ++ row.1))
      (if n then "_noexcept" else "")).bind (lookup staticMethodPointers) =
      some { isNoexcept := n } := by
  cases n <;> decide +kernel

theorem suffix_ending : ∀ row ∈ symRows, ∃ q, row.suffix = ending q := by
  have h : ∀ row ∈ symRows, row.suffix = ending (readQuals [row.c, row.v, row.r, row.n]) := by
    decide +kernel
  exact fun row hr => ⟨_, h row hr⟩

theorem ending_suffix (q : Quals) : ∃ row ∈ symRows, row.suffix = ending q := by
  obtain ⟨c, v, r, n⟩ := q
  cases c <;> cases v <;> cases r <;> cases n <;> decide +kernel

theorem ending_injective {q q' : Quals} (h : ending q = ending q') : q = q' := by
  have h1 := lookup_symRows q
  rw [h, lookup_symRows q'] at h1
  exact (Option.some.inj h1).symm

theorem front_of_suffix : ∀ r ∈ symRows, ∀ r' ∈ symRows,
    r.suffix.toList.drop (r.suffix.toList.length - r'.suffix.toList.length) = r'.suffix.toList →
    ∃ r'' ∈ symRows, r''.suffix.toList =
      r.suffix.toList.take (r.suffix.toList.length - r'.suffix.toList.length) := by
  decide +kernel

/-- What is in front of an ending within an ending is an ending. -/
theorem front_of_ending {q q' : Quals} {t : List Char}
    (h : (ending q).toList = t ++ (ending q').toList) : ∃ q'', t = (ending q'').toList := by
  obtain ⟨r, hr, e⟩ := ending_suffix q
  obtain ⟨r', hr', e'⟩ := ending_suffix q'
  rw [← e, ← e'] at h
  obtain ⟨r'', hr'', e''⟩ := front_of_suffix r hr r' hr' (by rw [h]; simp)
  obtain ⟨q'', hq⟩ := suffix_ending r'' hr''
  refine ⟨q'', ?_⟩
  rw [← hq, e'', h]
  simp

theorem append_ending {a b : String} {q q' : Quals} (h : a ++ ending q = b ++ ending q') :
    ∃ q'', b = a ++ ending q'' ∨ a = b ++ ending q'' := by
  have h1 : a.toList ++ (ending q).toList = b.toList ++ (ending q').toList := by
    rw [← String.toList_append, h, String.toList_append]
  rcases List.append_eq_append_iff.1 h1 with ⟨t, h2, h3⟩ | ⟨t, h2, h3⟩
  · obtain ⟨q'', rfl⟩ := front_of_ending h3
    exact ⟨q'', .inl (String.toList_inj.1 (by rw [h2, String.toList_append]))⟩
  · obtain ⟨q'', rfl⟩ := front_of_ending h3
    exact ⟨q'', .inr (String.toList_inj.1 (by rw [h2, String.toList_append]))⟩

theorem mem_named {α β : Type} (f : α → String) (g : α → β) (nm : Quals → String) (l : List α)
    (h1 : ∀ x ∈ l, ∃ q, f x = nm q) (h2 : ∀ q, ∃ x ∈ l, f x = nm q) (c : String) :
    (∃ p, (c, p) ∈ l.map fun x => (f x, g x)) ↔ ∃ q, c = nm q := by
  constructor
  · rintro ⟨p, hp⟩
    obtain ⟨x, hx, e⟩ := List.mem_map.1 hp
    obtain ⟨q, hq⟩ := h1 x hx
    exact ⟨q, (Prod.mk.inj e).1.symm.trans hq⟩
  · rintro ⟨q, e⟩
    obtain ⟨x, hx, hq⟩ := h2 q
    exact ⟨g x, List.mem_map.2 ⟨x, hx, by rw [e, hq]⟩⟩

theorem mem_methodCheckers (method c : String) :
    (∃ p, (c, p) ∈ methodCheckers method) ↔ ∃ q, c = checkerName method q := by
  refine mem_named (fun row : SymRow => "has_invocable_r_" ++ method ++ row.suffix ++ "_v")
    (fun row => "method_pointer" ++ row.suffix) (checkerName method) symRows (fun x hx => ?_)
    (fun q => ?_) c
  · exact (suffix_ending x hx).imp fun q hq =>
      congrArg (fun s => "has_invocable_r_" ++ method ++ s ++ "_v") hq
  · exact (ending_suffix q).imp fun x hx =>
      ⟨hx.1, congrArg (fun s => "has_invocable_r_" ++ method ++ s ++ "_v") hx.2⟩

theorem regroup (p a e z v : String) (h : z = "") : p ++ a ++ e ++ v = p ++ (a ++ e) ++ z ++ v := by
  subst h
  simp [String.append_assoc]

theorem checkerName_ending (a : String) (q : Quals) :
    checkerName a q = checkerName (a ++ ending q) {} :=
  regroup "has_invocable_r_" a (ending q) (ending {}) "_v" (by decide +kernel)

end Utils.Traits
