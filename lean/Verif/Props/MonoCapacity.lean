import Verif.Proofs.MonoCapacity

/-!
# C129: how much a `monotonic_buffer_resource` holds
-/

namespace Utils.Props

open Utils Utils.Res Utils.SR Utils.Spec Utils.CapacityProofs

variable {σ : Type}

/-- **C129**: requests that, packed one after the other from the current position, end inside the buffer, get
exactly these addresses, whatever the upstream, which is not asked. -/
theorem C129_packed {debug : Bool} {up : Option (Upstream σ)} {m : Mono} {u : σ} {given gs : List Grant}
    {rs : List Req} {e : Nat} (hd : m.data ≠ 0) (hn : m.data ≤ m.next) (hend : m.data + m.size < 2 ^ 64)
    (hr : ∀ r ∈ rs, Proper r) (hp : Packed m.next rs gs e) (he : e ≤ m.data + m.size) :
    monoRun debug up ⟨m, u, given⟩ (calls rs) = .ok ⟨{ m with next := e }, u, gs.reverse ++ given⟩ :=
  run_packed hd hn hend hr hp he

/-- **C129**: without upstream, and in the lower half of the address space, all requests are served exactly if
they end inside the buffer when packed one after the other. -/
theorem C129_iff {debug : Bool} {m : Mono} {u : σ} {given gs : List Grant} {rs : List Req} {e : Nat}
    (hd : m.data ≠ 0) (hn : m.data ≤ m.next) (hn2 : m.next ≤ m.data + m.size)
    (hend : m.data + m.size ≤ 2 ^ 63) (hr : ∀ r ∈ rs, Proper r ∧ r.1 < 2 ^ 63) (hp : Packed m.next rs gs e) :
    (∃ w, monoRun debug none ⟨m, u, given⟩ (calls rs) = .ok w ∧
      w.given.length = given.length + rs.length) ↔ e ≤ m.data + m.size := by
  constructor
  · rintro ⟨w, h, hl⟩
    exact run_full hd hn hn2 hend hr hp h hl
  · intro he
    refine ⟨_, run_packed hd hn (by omega) (fun r h => (hr r h).1) hp he, ?_⟩
    have hlen : gs.length = rs.length := by
      clear he hr hn2 hn
      generalize m.next = pos at hp
      induction hp with
      | nil => rfl
      | cons _ _ ih => simp [ih]
    simp [hlen]
    omega

example : ¬ ∃ w, monoRun true none (⟨⟨4096, 12, 4099⟩, (), []⟩ : MonoWorld Unit) (calls [(4, 4), (5, 8)]) = .ok w ∧
    w.given.length = 0 + 2 := by
  refine fun h => absurd ((C129_iff (given := []) (rs := [(4, 4), (5, 8)]) (by decide) (by decide) (by decide)
    (by decide) ?_ (.cons ⟨by decide, by decide, fun x ⟨c, hc⟩ h => by omega⟩
      (.cons ⟨by decide, by decide, fun x ⟨c, hc⟩ h => by omega⟩ (.nil _)) :
      Packed 4099 [(4, 4), (5, 8)] [⟨4100, 4, 4⟩, ⟨4104, 5, 8⟩] 4109)).1 h) (by decide)
  intro r h
  simp only [List.mem_cons, List.not_mem_nil, or_false] at h
  rcases h with rfl | rfl
  · exact ⟨⟨by decide, ⟨2, rfl⟩, by decide⟩, by decide⟩
  · exact ⟨⟨by decide, ⟨3, rfl⟩, by decide⟩, by decide⟩

/-- **C129**: whatever the buffer and the order of the requests, they are all served from the buffer if the
bytes left are at least the sum of size plus alignment less one. -/
theorem C129_enough {debug : Bool} {up : Option (Upstream σ)} {buffer bytes : Nat} {u : σ} {rs : List Req}
    (hb : buffer ≠ 0) (hend : buffer + bytes < 2 ^ 64) (hr : ∀ r ∈ rs, Proper r)
    (hsum : (rs.map fun r => r.1 + (r.2 - 1)).sum ≤ bytes) :
    ∃ gs e, Packed buffer rs gs e ∧ e ≤ buffer + bytes ∧
      ∃ m, monoRun debug up ⟨Mono.make buffer bytes, u, []⟩ (calls rs) = .ok ⟨m, u, gs.reverse⟩ := by
  obtain ⟨gs, e, hp⟩ := packed_exists (fun r h => (hr r h).2.1) buffer
  have hle := packed_le hp fun r h => (hr r h).2.1
  refine ⟨gs, e, hp, by omega, ?_⟩
  cases rs with
  | nil =>
    cases hp
    exact ⟨_, rfl⟩
  | cons r rs =>
    have hbytes : bytes ≠ 0 := by
      have := (hr r List.mem_cons_self).1
      simp only [List.map_cons, List.sum_cons] at hsum
      omega
    have hm : Mono.make buffer bytes = ⟨buffer, bytes, buffer⟩ := by
      simp [Mono.make, hb, hbytes]
    rw [hm]
    refine ⟨⟨buffer, bytes, e⟩, ?_⟩
    rw [C129_packed (m := ⟨buffer, bytes, buffer⟩) hb (Nat.le_refl _) hend hr hp (by simp only; omega),
      List.append_nil]

example : ∃ gs e, Packed 4097 [(5, 1), (24, 8), (3, 16)] gs e ∧ e ≤ 4097 + 54 ∧ ∃ m,
    monoRun true none (⟨Mono.make 4097 54, (), []⟩ : MonoWorld Unit) (calls [(5, 1), (24, 8), (3, 16)]) =
      .ok ⟨m, (), gs.reverse⟩ :=
  C129_enough (by decide) (by decide) (by
    intro r h
    simp only [List.mem_cons, List.not_mem_nil, or_false] at h
    rcases h with rfl | rfl | rfl
    · exact ⟨by decide, ⟨0, rfl⟩, by decide⟩
    · exact ⟨by decide, ⟨3, rfl⟩, by decide⟩
    · exact ⟨by decide, ⟨4, rfl⟩, by decide⟩) (by decide)

/-- **C129**: the bound cannot be improved, for any number of requests and any alignment: behind an aligned
address, every request of one byte takes the whole of size plus alignment less one. -/
theorem C129_tight {k n q e : Nat} {gs : List Grant}
    (h : Packed (q * 2 ^ k + 1) (List.replicate n (1, 2 ^ k)) gs e) :
    e = q * 2 ^ k + 1 + ((List.replicate n (1, 2 ^ k)).map fun r : Req => r.1 + (r.2 - 1)).sum := by
  have hk := Nat.two_pow_pos k
  rw [List.map_replicate, List.sum_replicate_nat]
  induction n generalizing q gs with
  | zero => cases h; simp
  | succ n ih =>
    cases h with
    | @cons _ start _ _ _ _ gs hl hp =>
      have hs : start = (q + 1) * 2 ^ k ∨ k = 0 := by
        by_cases h0 : k = 0
        · exact Or.inr h0
        · left
          have h1 := hl.2.2 ((q + 1) * 2 ^ k) (Nat.dvd_mul_left _ _) (by rw [Nat.add_mul]; omega)
          obtain ⟨c, hc⟩ := hl.1
          have h2 := hl.2.1
          rw [Nat.mul_comm] at hc
          rw [hc] at h1 h2 ⊢
          have h3 : c ≤ q + 1 := Nat.le_of_mul_le_mul_right h1 hk
          have h4 : q < c := by
            refine Nat.lt_of_not_le fun hcq => ?_
            have := Nat.mul_le_mul_right (2 ^ k) hcq
            omega
          congr 1
          omega
      rcases hs with rfl | rfl
      · have := ih hp
        rw [this, Nat.add_mul, Nat.add_mul]
        omega
      · have h1 : start = q + 1 := by
          have := Nat.le_antisymm (hl.2.2 (q + 1) (by simp) (by simp)) (by simpa using hl.2.1)
          exact this
        subst h1
        have := ih (q := q + 1) (by simpa using hp)
        rw [this]
        simp
        omega

example : Packed (512 * 2 ^ 3 + 1) (List.replicate 2 (1, 2 ^ 3)) [⟨4104, 1, 8⟩, ⟨4112, 1, 8⟩] 4113 :=
  .cons ⟨by decide, by decide, fun x ⟨c, hc⟩ h => by omega⟩
    (.cons ⟨by decide, by decide, fun x ⟨c, hc⟩ h => by omega⟩ (.nil _))

/-- **C129**: objects, whose sizes are multiples of their alignments, ordered by falling alignment and put into a
buffer that is aligned for all of them, lose nothing, and no other order needs less. -/
theorem C129_sorted {pos e : Nat} {rs : List Req} {gs : List Grant} (h : Packed pos rs gs e)
    (hp : ∀ r ∈ rs, IsPow2 r.2 ∧ r.2 ∣ r.1) (hs : rs.Pairwise fun r r' => r'.2 ≤ r.2)
    (hpos : ∀ r ∈ rs, r.2 ∣ pos) :
    e = pos + (rs.map Prod.fst).sum ∧
    ∀ rs' gs' e', rs'.Perm rs → Packed pos rs' gs' e' → e ≤ e' := by
  have he := packed_sorted h hp hs hpos
  refine ⟨he, fun rs' gs' e' hperm h' => ?_⟩
  have h1 := packed_ge h'
  have h2 : (rs'.map Prod.fst).sum = (rs.map Prod.fst).sum := (hperm.map _).sum_nat
  omega

/-- The same three objects, and an order that loses seven bytes. -/
example : Packed 4096 [(16, 8), (4, 4), (1, 1)] [⟨4096, 16, 8⟩, ⟨4112, 4, 4⟩, ⟨4116, 1, 1⟩] 4117 ∧
    Packed 4096 [(1, 1), (16, 8), (4, 4)] [⟨4096, 1, 1⟩, ⟨4104, 16, 8⟩, ⟨4120, 4, 4⟩] 4124 :=
  ⟨.cons ⟨by decide, by decide, fun x ⟨c, hc⟩ h => by omega⟩
    (.cons ⟨by decide, by decide, fun x ⟨c, hc⟩ h => by omega⟩
      (.cons ⟨by decide, by decide, fun x ⟨c, hc⟩ h => by omega⟩ (.nil _))),
   .cons ⟨by decide, by decide, fun x ⟨c, hc⟩ h => by omega⟩
    (.cons ⟨by decide, by decide, fun x ⟨c, hc⟩ h => by omega⟩
      (.cons ⟨by decide, by decide, fun x ⟨c, hc⟩ h => by omega⟩ (.nil _)))⟩

end Utils.Props
