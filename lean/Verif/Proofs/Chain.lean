import Verif.Spec.Chain
import Verif.Proofs.Resources
import Verif.Proofs.SRScanExact
import Verif.Proofs.SRHistory
import Mathlib.Data.List.Perm.Subperm

/-! # Lemmas about chains of upstream resources -/

namespace Utils.ChainProofs

open Utils Utils.Bits Utils.SR Utils.Res Utils.Spec Utils.Chain

variable {τ : Type} {net net' : List (Node τ)} {B : Base τ} {debug : Bool} {loop size align : Nat}

theorem tryHere_upstream {n n' : Node τ} {ptr : Nat} (h : n.tryHere B debug loop size align = .ok (n', ptr)) :
    n'.upstream = n.upstream := by
  cases n with
  | mono m up =>
    simp only [Node.tryHere, Outcome.bind_eq_ok, Outcome.pure_eq, Outcome.ok.injEq, Prod.mk.injEq] at h
    obtain ⟨_, _, _, _, h, _⟩ := h
    rw [← h]; rfl
  | simple p s up =>
    simp only [Node.tryHere, Outcome.bind_eq_ok, Outcome.pure_eq, Outcome.ok.injEq, Prod.mk.injEq] at h
    obtain ⟨_, _, _, _, h, _⟩ := h
    rw [← h]; rfl
  | base t =>
    simp only [Node.tryHere, Outcome.pure_eq, Outcome.ok.injEq, Prod.mk.injEq] at h
    rw [← h.1]; rfl

theorem set_same {l : List (Node τ)} {i : Nat} {n : Node τ} (h : l[i]? = some n) : l.set i n = l := by
  apply List.ext_getElem?
  intro k
  rw [List.getElem?_set]
  split
  · next e =>
    subst e
    split
    · exact h.symm
    · next hl => rw [List.getElem?_eq_none (by omega)] at h; cases h
  · rfl

/-- One call, unfolded for requests of at least a byte. -/
theorem allocate_succ {depth i : Nat} {n : Node τ} (hn : net[i]? = some n) (hs : size ≠ 0) :
    Chain.allocate B debug loop (depth + 1) net i size align =
      (n.tryHere B debug loop size align >>= fun r =>
        (match r.1.upstream with
          | some j => if r.2 = 0 then Chain.allocate B debug loop depth (net.set i r.1) j size align
              else .ok (r.2, net.set i r.1)
          | none => .ok (r.2, net.set i r.1)) >>= fun x =>
        r.1.checkResult x.1 >>= fun _ => pure x) := by
  cases n with
  | base t => simp only [Chain.allocate, hn, Node.tryHere]; rfl
  | mono m up =>
    simp only [Chain.allocate, hn, if_neg hs]
    cases Node.tryHere B debug loop size align (Node.mono m up) with
    | ok r => cases h : r.1.upstream <;> simp [h]; split <;> rfl
    | _ => rfl
  | simple p s up =>
    simp only [Chain.allocate, hn, if_neg hs]
    cases Node.tryHere B debug loop size align (Node.simple p s up) with
    | ok r => cases h : r.1.upstream <;> simp [h]; split <;> rfl
    | _ => rfl

theorem tryHere_simple {p : Params} {s : SR.State} {up : Option Nat} {n' : Node τ} {ptr : Nat}
    (h : (Node.simple p s up : Node τ).tryHere B debug loop size align = .ok (n', ptr)) :
    ∃ s', n' = .simple p s' up := by
  simp only [Node.tryHere, Outcome.bind_eq_ok, Outcome.pure_eq, Outcome.ok.injEq, Prod.mk.injEq] at h
  obtain ⟨_, _, x, _, h, _⟩ := h
  exact ⟨_, h.symm⟩

theorem check_simple {p : Params} (hv : Valid p) {s : SR.State} {up : Option Nat} {ptr : Nat}
    (h : p.debug = true → p.blockSize ∣ ptr) : (Node.simple p s up : Node τ).checkResult ptr = .ok () := by
  simp only [Node.checkResult]
  have hlt : ptr % 2 ^ 64 < 2 ^ 64 := Nat.mod_lt _ (by decide)
  have e : BitVec.ofNat 64 ptr = BitVec.ofNat 64 (ptr % 2 ^ 64) := by
    apply BitVec.eq_of_toNat_eq
    simp
  rw [e, SR.isAligned_block hv hlt]
  simp only [Outcome.ok_bind]
  cases hd : p.debug with
  | false => rfl
  | true =>
    have hdv : p.blockSize ∣ ptr % 2 ^ 64 := by
      obtain ⟨k, hk, hb⟩ := hv.pow_lt
      refine (Nat.dvd_mod_iff ?_).2 (h hd)
      rw [hb]
      exact Nat.pow_dvd_pow 2 (by omega)
    rw [decide_eq_true hdv]
    rfl

/-- The check of the result, after the resource has tried. -/
theorem check_after (hv : ValidNet net) {i ptr q : Nat} {n n' : Node τ} (hn : net[i]? = some n)
    (ht : n.tryHere B debug loop size align = .ok (n', q)) (hc : PassesCheck net i ptr) :
    n'.checkResult ptr = .ok () := by
  cases n with
  | simple p s up =>
    obtain ⟨s', rfl⟩ := tryHere_simple ht
    exact check_simple (hv p s up (List.mem_of_getElem? hn)) (hc p s up hn)
  | mono m up =>
    simp only [Node.tryHere, Outcome.bind_eq_ok, Outcome.pure_eq, Outcome.ok.injEq, Prod.mk.injEq] at ht
    obtain ⟨_, _, _, _, h, _⟩ := ht
    rw [← h]; rfl
  | base t =>
    simp only [Node.tryHere, Outcome.pure_eq, Outcome.ok.injEq, Prod.mk.injEq] at ht
    rw [← ht.1]; rfl

theorem served {R : Nat → Prop} {i j ptr : Nat} {n' : Node τ} (hv : ValidNet net) (hs : size ≠ 0)
    (hR : ∀ k, R k → RefusesItself B debug loop size align net k ∧ PassesCheck net k ptr)
    (h : PassedOn R net i j)
    (ha : AnswersItself B debug loop size align net j ptr n') (hc : PassesCheck net j ptr) :
    ∃ d, ∀ depth, d ≤ depth →
      Chain.allocate B debug loop depth net i size align = .ok (ptr, net.set j n') := by
  induction h with
  | here j =>
    refine ⟨1, fun depth hd => ?_⟩
    obtain ⟨depth, rfl⟩ : ∃ m, depth = m + 1 := ⟨depth - 1, by omega⟩
    obtain ⟨n, hn, ht, hp⟩ := ha
    have hc := check_after hv hn ht hc
    rw [allocate_succ hn hs, ht]
    have hu := tryHere_upstream ht
    simp only [Outcome.ok_bind, hu]
    rcases hp with hp | hp
    · cases n.upstream <;> simp [hp, hc]
    · simp [hp, hc]
  | @up i k j hr hu _ ih =>
    obtain ⟨d, ih⟩ := ih ha hc
    refine ⟨d + 1, fun depth hd => ?_⟩
    obtain ⟨depth, rfl⟩ : ∃ m, depth = m + 1 := ⟨depth - 1, by omega⟩
    obtain ⟨⟨n, hn, ht⟩, hpc⟩ := hR _ hr
    obtain ⟨n1, hn1, hup⟩ := hu
    rw [hn] at hn1; cases hn1
    rw [allocate_succ hn hs, ht]
    simp only [Outcome.ok_bind, hup, if_true, set_same hn]
    rw [ih depth (by omega)]
    simp [check_after hv hn ht hpc]

theorem never {i : Nat} (hs : size ≠ 0)
    (h : ∀ k, Upwards net i k → RefusesItself B debug loop size align net k ∧ ∃ j, UpstreamOf net k j)
    (depth : Nat) : Chain.allocate B debug loop depth net i size align = .outOfFuel := by
  induction depth generalizing i with
  | zero => rfl
  | succ depth ih =>
    obtain ⟨⟨n, hn, ht⟩, j, n1, hn1, hup⟩ := h i (.here i)
    rw [hn] at hn1; cases hn1
    rw [allocate_succ hn hs, ht]
    simp only [Outcome.ok_bind, hup, if_true, set_same hn]
    rw [ih fun k hk => h k (.up trivial ⟨n, hn, hup⟩ hk)]
    rfl

theorem passed_snoc {R : Nat → Prop} {i j k : Nat} (h : PassedOn R net i j) (hr : R j)
    (hu : UpstreamOf net j k) : PassedOn R net i k := by
  induction h with
  | here j => exact .up hr hu (.here k)
  | up r u _ ih => exact .up r u (ih hr hu)

theorem passed_mono {R S : Nat → Prop} {i j : Nat} (hRS : ∀ k, R k → S k) (h : PassedOn R net i j) :
    PassedOn S net i j := by
  induction h with
  | here j => exact .here j
  | up r u _ ih => exact .up (hRS _ r) u ih

/-- If every resource that is passed on to meets `R`, everything upwards is passed on to. -/
theorem passed_all {R : Nat → Prop} {i : Nat} (h : ∀ k, PassedOn R net i k → R k) {k : Nat}
    (hk : Upwards net i k) : PassedOn R net i k := by
  induction hk with
  | here i => exact .here i
  | @up i j k _ hu _ ih =>
    exact .up (h i (.here i)) hu (ih fun m hm => h m (.up (h i (.here i)) hu hm))

theorem ends_up {i j : Nat} (h : ChainEnds net i) (hu : UpstreamOf net i j) : ChainEnds net j := by
  obtain ⟨n, hn, hup⟩ := hu
  cases h with
  | last hn' h' => rw [hn] at hn'; cases hn'; rw [hup] at h'; cases h'
  | up hu' h' =>
    obtain ⟨n', hn', hup'⟩ := hu'
    rw [hn] at hn'; cases hn'; rw [hup] at hup'; cases hup'; exact h'

theorem ends_upwards {i k : Nat} (h : ChainEnds net i) (hk : Upwards net i k) : ChainEnds net k := by
  induction hk with
  | here i => exact h
  | up _ hu _ ih => exact ih (ends_up h hu)

/-- A chain that ends has a last resource. -/
theorem ends_last {i : Nat} (h : ChainEnds net i) :
    ∃ k n, Upwards net i k ∧ net[k]? = some n ∧ n.upstream = none := by
  induction h with
  | last hn hu => exact ⟨_, _, .here _, hn, hu⟩
  | up hu _ ih =>
    obtain ⟨k, n, hk, hn, hup⟩ := ih
    exact ⟨k, n, .up trivial hu hk, hn, hup⟩

theorem returns_iff {i : Nat} (hv : ValidNet net) (hs : size ≠ 0)
    (hreg : Regular B debug loop size align net i) :
    (∃ depth r, Chain.allocate B debug loop depth net i size align = .ok r) ↔
      ¬ ∀ k, Upwards net i k → RefusesItself B debug loop size align net k ∧ ∃ j, UpstreamOf net k j := by
  constructor
  · rintro ⟨depth, r, hr⟩ h
    rw [never hs h] at hr; cases hr
  · intro h
    by_cases hex : ∃ j ptr n', PassedOn (RefusesItself B debug loop size align net) net i j ∧
        AnswersItself B debug loop size align net j ptr n' ∧
        ∀ m, Upwards net i m → PassesCheck net m ptr
    · obtain ⟨j, ptr, n', hp, ha, hall⟩ := hex
      have hup : Upwards net i j := passed_mono (fun _ _ => trivial) hp
      have hcj := hall j hup
      have hp' : PassedOn (fun k => RefusesItself B debug loop size align net k ∧ PassesCheck net k ptr)
          net i j := by
        clear h hreg ha hup hcj
        induction hp with
        | here j => exact .here j
        | @up i k j r u _ ih =>
          exact .up ⟨r, hall i (.here i)⟩ u (ih fun m hm => hall m (.up trivial u hm))
      obtain ⟨d, hd⟩ := served hv hs (fun k hk => hk) hp' ha hcj
      exact ⟨d, _, hd d (Nat.le_refl d)⟩
    · exfalso
      apply h
      have hup : ∀ {j}, PassedOn (RefusesItself B debug loop size align net) net i j → Upwards net i j :=
        fun hp => passed_mono (fun _ _ => trivial) hp
      have key : ∀ k, PassedOn (RefusesItself B debug loop size align net) net i k →
          RefusesItself B debug loop size align net k ∧ ∃ j, UpstreamOf net k j := by
        intro k hk
        rcases hreg k (hup hk) with hr | ⟨ptr, n', ha, hall⟩
        · exact hr
        · exact absurd ⟨k, ptr, n', hk, ha, hall⟩ hex
      exact fun k hk => key k (passed_all (fun m hm => (key m hm).1) hk)

/-- Two nets with the same upstream pointers. -/
def SameUps (net net' : List (Node τ)) : Prop :=
  net'.map Node.upstream = net.map Node.upstream

theorem sameUps_upstream (h : SameUps net net') {i j : Nat} : UpstreamOf net' i j ↔ UpstreamOf net i j := by
  have : ∀ {l : List (Node τ)}, UpstreamOf l i j ↔ (l.map Node.upstream)[i]? = some (some j) := by
    intro l
    simp [UpstreamOf, List.getElem?_map]
  rw [this, this, h]

theorem sameUps_upwards (h : SameUps net net') {i j : Nat} : Upwards net' i j ↔ Upwards net i j := by
  constructor
  · intro hu
    induction hu with
    | here i => exact .here i
    | up _ u _ ih => exact .up trivial ((sameUps_upstream h).1 u) ih
  · intro hu
    induction hu with
    | here i => exact .here i
    | up _ u _ ih => exact .up trivial ((sameUps_upstream h).2 u) ih

theorem ends_of_ups : ∀ {l : List (Node τ)} {i : Nat}, (l.map Node.upstream)[i]? = some none → ChainEnds l i := by
  intro l i h
  simp only [List.getElem?_map, Option.map_eq_some_iff] at h
  obtain ⟨n, hn, hu⟩ := h
  exact .last hn hu

theorem sameUps_ends (h : SameUps net net') {i : Nat} (he : ChainEnds net i) : ChainEnds net' i := by
  induction he with
  | last hn hu =>
    apply ends_of_ups
    rw [h]
    simp [List.getElem?_map, hn, hu]
  | up u _ ih => exact .up ((sameUps_upstream h).2 u) ih

theorem sameUps_all (h : SameUps net net') (he : AllChainsEnd net) : AllChainsEnd net' := by
  intro i hi
  have hl : net'.length = net.length := by simpa using congrArg List.length h
  exact sameUps_ends h (he i (by omega))

theorem sameUps_set {i : Nat} {n n' : Node τ} (hn : net[i]? = some n) (hu : n'.upstream = n.upstream) :
    SameUps net (net.set i n') := by
  unfold SameUps
  rw [List.map_set, hu]
  apply List.ext_getElem?
  intro k
  rw [List.getElem?_set]
  split
  · next e =>
    subst e
    simp only [List.getElem?_map, hn, Option.map_some, List.length_map]
    split
    · rfl
    · next hl => rw [List.getElem?_eq_none (by omega)] at hn; cases hn
  · rfl

theorem sameUps_trans {a b c : List (Node τ)} (h : SameUps a b) (h' : SameUps b c) : SameUps a c :=
  h'.trans h

theorem allocate_ups {depth i : Nat} {r : Nat × List (Node τ)}
    (h : Chain.allocate B debug loop depth net i size align = .ok r) : SameUps net r.2 := by
  induction depth generalizing net i r with
  | zero => cases h
  | succ depth ih =>
    by_cases hs : size = 0
    · unfold Chain.allocate at h
      split at h
      · cases h
      · next t hn =>
        simp only [Outcome.ok.injEq] at h
        rw [← h]
        exact sameUps_set hn rfl
      · rw [if_pos hs] at h
        cases h
        exact rfl
    · cases hn : net[i]? with
      | none => simp [Chain.allocate, hn] at h
      | some n =>
        rw [allocate_succ hn hs] at h
        simp only [Outcome.bind_eq_ok] at h
        obtain ⟨⟨n', ptr⟩, ht, x, hx, _, _, hr⟩ := h
        simp only [Outcome.pure_eq, Outcome.ok.injEq] at hr
        subst hr
        have h1 := sameUps_set hn (tryHere_upstream ht)
        simp only at hx
        split at hx
        · split at hx
          · exact sameUps_trans h1 (ih hx)
          · cases hx; exact h1
        · cases hx; exact h1

theorem deallocate_ups {depth i ptr : Nat} {r : List (Node τ)}
    (h : Chain.deallocate B depth net i ptr = .ok r) : SameUps net r := by
  induction depth generalizing net i r with
  | zero => cases h
  | succ depth ih =>
    unfold Chain.deallocate at h
    split at h
    · cases h
    · next t hn =>
      simp only [Outcome.ok.injEq] at h
      rw [← h]
      exact sameUps_set hn rfl
    · cases h; exact rfl
    · next p s up hn =>
      split at h
      · cases h; exact rfl
      · simp only [Outcome.bind_eq_ok] at h
        obtain ⟨al, _, _, _, h⟩ := h
        split at h
        · simp only [Outcome.bind_eq_ok, Outcome.pure_eq, Outcome.ok.injEq] at h
          obtain ⟨_, _, _, _, h⟩ := h
          rw [← h]
          exact sameUps_set hn rfl
        · cases up with
          | some j => exact ih h
          | none =>
            simp only [Outcome.bind_eq_ok, Outcome.pure_eq, Outcome.ok.injEq] at h
            obtain ⟨_, _, _, _, h⟩ := h
            rw [← h]; exact rfl

theorem assign_upstream {a b : Node τ} (h : SameClass a b) : (a.assign b).upstream = b.upstream := by
  cases a <;> cases b <;> simp_all [SameClass, Node.assign, Node.upstream]

/-- The upstreams after `i = j`. -/
theorem assign_ups {i j : Nat} {a b : Node τ} (hi : net[i]? = some a) (hj : net[j]? = some b)
    (hc : SameClass a b) {k m : Nat} :
    UpstreamOf (net.set i (a.assign b)) k m ↔ if k = i then UpstreamOf net j m else UpstreamOf net k m := by
  have hil : i < net.length := by
    rcases Nat.lt_or_ge i net.length with h | h
    · exact h
    · rw [List.getElem?_eq_none h] at hi; cases hi
  unfold UpstreamOf
  rw [List.getElem?_set]
  by_cases e : i = k
  · subst e
    simp [hil, hj, assign_upstream hc]
  · simp [e, Ne.symm e]

theorem assign_none {i j : Nat} {a b : Node τ} (_hi : net[i]? = some a) (_hj : net[j]? = some b)
    (_hc : SameClass a b) {k : Nat} {n : Node τ} (hn : net[k]? = some n) (hu : n.upstream = none) (hki : k ≠ i) :
    ChainEnds (net.set i (a.assign b)) k := by
  refine .last (n := n) ?_ hu
  rw [List.getElem?_set, if_neg (Ne.symm hki), hn]

theorem assign_end_i {i j : Nat} {a b : Node τ} (hi : net[i]? = some a) (_hj : net[j]? = some b)
    (hc : SameClass a b) (hu : b.upstream = none) : ChainEnds (net.set i (a.assign b)) i := by
  refine .last (n := a.assign b) ?_ ((assign_upstream hc).trans hu)
  rw [List.getElem?_set, if_pos rfl, if_pos]
  rcases Nat.lt_or_ge i net.length with h | h
  · exact h
  · rw [List.getElem?_eq_none h] at hi; cases hi

/-- A chain that does not lead to `i` is the same after `i = j`. -/
theorem assign_keeps {i j : Nat} {a b : Node τ} (hi : net[i]? = some a) (hj : net[j]? = some b)
    (hc : SameClass a b) {k : Nat} (he : ChainEnds net k) (hk : ¬ Upwards net k i) :
    ChainEnds (net.set i (a.assign b)) k := by
  induction he with
  | @last k n hn hu => exact assign_none hi hj hc hn hu (fun e => hk (e ▸ .here k))
  | @up k m u _ ih =>
    have hki : k ≠ i := fun e => hk (e ▸ .here k)
    exact .up ((assign_ups hi hj hc).2 (by rw [if_neg hki]; exact u)) (ih fun h => hk (.up trivial u h))

theorem assign_iff {i j : Nat} {a b : Node τ} (hi : net[i]? = some a) (hj : net[j]? = some b)
    (hc : SameClass a b) (he : AllChainsEnd net) :
    AllChainsEnd (net.set i (a.assign b)) ↔ ¬ AboveOf net j i := by
  have hil : i < net.length := by
    rcases Nat.lt_or_ge i net.length with h | h
    · exact h
    · rw [List.getElem?_eq_none h] at hi; cases hi
  have hjl : j < net.length := by
    rcases Nat.lt_or_ge j net.length with h | h
    · exact h
    · rw [List.getElem?_eq_none h] at hj; cases hj
  constructor
  · rintro h ⟨k, hjk, hki⟩
    have key : ∀ m, ChainEnds (net.set i (a.assign b)) m → Upwards net m i → False := by
      intro m hm
      induction hm with
      | @last m n hn hu =>
        intro hmi
        by_cases e : m = i
        · subst e
          rw [List.getElem?_set, if_pos rfl, if_pos hil] at hn
          cases hn
          rw [assign_upstream hc] at hu
          obtain ⟨n, hn, hup⟩ := hjk
          rw [hj] at hn; cases hn
          rw [hu] at hup; cases hup
        · cases hmi with
          | here => exact e rfl
          | up _ u _ =>
            obtain ⟨n', hn', hup⟩ := u
            rw [List.getElem?_set, if_neg (Ne.symm e), hn'] at hn
            cases hn
            rw [hu] at hup; cases hup
      | @up m m' u _ ih =>
        intro hmi
        rw [assign_ups hi hj hc] at u
        by_cases e : m = i
        · rw [if_pos e] at u
          obtain ⟨n, hn, hup⟩ := hjk
          obtain ⟨n', hn', hup'⟩ := u
          rw [hn] at hn'; cases hn'
          rw [hup] at hup'; cases hup'
          exact ih hki
        · rw [if_neg e] at u
          cases hmi with
          | here => exact e rfl
          | up _ u' h' =>
            obtain ⟨n, hn, hup⟩ := u
            obtain ⟨n', hn', hup'⟩ := u'
            rw [hn] at hn'; cases hn'
            rw [hup] at hup'; cases hup'
            exact ih h'
    exact key i (h i (by simpa using hil)) (.here i)
  · intro hab
    have hiends : ChainEnds (net.set i (a.assign b)) i := by
      cases hu : b.upstream with
      | none => exact assign_end_i hi hj hc hu
      | some k =>
        have hjk : UpstreamOf net j k := ⟨b, hj, hu⟩
        refine .up ((assign_ups hi hj hc).2 (by rw [if_pos rfl]; exact hjk)) ?_
        exact assign_keeps hi hj hc (ends_up (he j hjl) hjk) fun h => hab ⟨k, hjk, h⟩
    have key : ∀ k, ChainEnds net k → ChainEnds (net.set i (a.assign b)) k := by
      intro k hk
      induction hk with
      | @last k n hn hu =>
        by_cases e : k = i
        · exact e ▸ hiends
        · exact assign_none hi hj hc hn hu e
      | @up k m u _ ih =>
        by_cases e : k = i
        · exact e ▸ hiends
        · exact .up ((assign_ups hi hj hc).2 (by rw [if_neg e]; exact u)) ih
    intro k hk
    exact key k (he k (by simpa using hk))

theorem ends_append {l : List (Node τ)} {k : Nat} (n : Node τ) (h : ChainEnds l k) : ChainEnds (l ++ [n]) k := by
  have hget : ∀ {i : Nat} {x : Node τ}, l[i]? = some x → (l ++ [n])[i]? = some x := by
    intro i x hx
    rw [List.getElem?_append_left]
    · exact hx
    · rcases Nat.lt_or_ge i l.length with h | h
      · exact h
      · rw [List.getElem?_eq_none h] at hx; cases hx
  induction h with
  | last hn hu => exact .last (hget hn) hu
  | up u _ ih =>
    obtain ⟨x, hx, hu⟩ := u
    exact .up ⟨x, hget hx, hu⟩ ih

theorem make_all {l : List (Node τ)} (n : Node τ) (h : AllChainsEnd l)
    (hn : ∀ j, n.upstream = some j → j < l.length) : AllChainsEnd (l ++ [n]) := by
  intro k hk
  rcases Nat.lt_or_ge k l.length with hlt | hge
  · exact ends_append n (h k hlt)
  · have hk' : k = l.length := by simp at hk; omega
    subst hk'
    have hget : (l ++ [n])[l.length]? = some n := by simp
    cases hu : n.upstream with
    | none => exact .last hget hu
    | some j => exact .up ⟨n, hget, hu⟩ (ends_append n (h j (hn j hu)))

theorem step_iff {depth : Nat} {op : Op τ} (he : AllChainsEnd net) (ho : Ordinary net op)
    (h : step B debug loop depth net op = .ok net') : AllChainsEnd net' ↔ NotBelow net op := by
  cases op with
  | make n =>
    simp only [Chain.step, Outcome.ok.injEq] at h
    subst h
    simp only [NotBelow, iff_true]
    exact make_all n he ho
  | assign i j =>
    obtain ⟨a, b, ha, hb, hc⟩ := ho
    simp only [Chain.step, ha, hb, Outcome.ok.injEq] at h
    subst h
    exact assign_iff ha hb hc he
  | allocate i size align =>
    simp only [Chain.step, Outcome.map] at h
    simp only [NotBelow, iff_true]
    cases hr : Chain.allocate B debug loop depth net i size align with
    | ok r =>
      rw [hr] at h
      simp only [Outcome.bind, Outcome.ok.injEq] at h
      subst h
      exact sameUps_all (allocate_ups hr) he
    | _ => rw [hr] at h; cases h
  | deallocate i ptr =>
    simp only [NotBelow, iff_true]
    exact sameUps_all (deallocate_ups h) he

/-! ## Giving memory back -/

theorem loopFree_abortIf (c : Bool) : abortIf c ≠ .outOfFuel := by
  cases c <;> nofun

theorem loopFree_inUseAt {p : Params} (s : SR.State) (i : Nat) : inUseAt p s i ≠ .outOfFuel :=
  loopFree_bind (loopFree_checkIdx _) fun _ => loopFree_pure _

theorem loopFree_merge {p : Params} (s : SR.State) (l r : Nat) : mergeIfBothNotInUse p s l r ≠ .outOfFuel := by
  unfold mergeIfBothNotInUse
  split
  · exact loopFree_pure _
  · refine loopFree_bind (loopFree_assert _ _) fun _ => loopFree_bind (loopFree_inUseAt _ _) fun _ => ?_
    split
    · refine loopFree_bind (loopFree_inUseAt _ _) fun _ => ?_
      split
      · exact loopFree_bind (loopFree_assert _ _) fun _ => loopFree_bind (loopFree_checkIdx _) fun _ =>
          loopFree_bind (loopFree_setPrev _ _ _) fun _ => loopFree_bind (loopFree_setNext _ _ _) fun _ =>
            loopFree_pure _
      · exact loopFree_pure _
    · refine loopFree_bind ?_ fun _ => loopFree_pure _
      unfold assertNotInUse
      split
      · exact loopFree_bind (loopFree_inUseAt _ _) fun _ => loopFree_assert _ _
      · exact loopFree_pure _

theorem loopFree_deallocateBlocks {p : Params} (s : SR.State) (i : Nat) :
    deallocateBlocks p s i ≠ .outOfFuel :=
  loopFree_bind (loopFree_assert _ _) fun _ => loopFree_bind (loopFree_inUseAt _ _) fun _ =>
    loopFree_bind (loopFree_abortIf _) fun _ => loopFree_bind (loopFree_setInUse _ _ _) fun _ =>
      loopFree_bind (loopFree_assert _ _) fun _ => loopFree_bind (loopFree_assert _ _) fun _ =>
        loopFree_bind (loopFree_checkIdx _) fun _ => loopFree_bind (loopFree_inUseAt _ _) fun _ =>
          loopFree_bind (loopFree_assert _ _) fun _ => loopFree_bind (loopFree_merge _ _ _) fun _ =>
            loopFree_merge _ _ _

/-- One step of `deallocate`: either it does not come back from upstream only, or it needs no upstream. -/
theorem dealloc_step (hv : ValidNet net) {i ptr : Nat} (hlt : ptr < 2 ^ 64) (hp : ptr ≠ 0) :
    (∃ j, Forwards net ptr i ∧ UpstreamOf net i j ∧
      ∀ depth, Chain.deallocate B (depth + 1) net i ptr = Chain.deallocate B depth net j ptr) ∨
    ((¬ (Forwards net ptr i ∧ ∃ j, UpstreamOf net i j)) ∧
      ∀ depth, Chain.deallocate B (depth + 1) net i ptr ≠ .outOfFuel) := by
  cases hn : net[i]? with
  | none =>
    refine .inr ⟨(by rintro ⟨⟨_, _, _, h, _⟩, _⟩; rw [hn] at h; cases h), fun depth => ?_⟩
    simp [Chain.deallocate, hn]
  | some n =>
    cases n with
    | base t =>
      refine .inr ⟨(by rintro ⟨⟨_, _, _, h, _⟩, _⟩; rw [hn] at h; cases h), fun depth => ?_⟩
      simp [Chain.deallocate, hn]
    | mono m up =>
      refine .inr ⟨(by rintro ⟨⟨_, _, _, h, _⟩, _⟩; rw [hn] at h; cases h), fun depth => ?_⟩
      simp [Chain.deallocate, hn]
    | simple p s up =>
      have hval : Valid p := hv p s up (List.mem_of_getElem? hn)
      by_cases hal : p.blockSize ∣ ptr
      · by_cases hin : s.data ≤ ptr ∧ ptr < (s.data + SR.size p s) % 2 ^ 64
        · refine .inr ⟨?_, fun depth => ?_⟩
          · rintro ⟨⟨_, _, _, h, _, hout⟩, _⟩
            rw [hn] at h; cases h
            exact hout hin
          · simp only [Chain.deallocate, hn, if_neg hp, SR.isAligned_block hval hlt, Outcome.ok_bind, if_pos hin]
            exact loopFree_bind (loopFree_abortIf _) fun _ => loopFree_bind (loopFree_index _) fun _ =>
              loopFree_bind (loopFree_deallocateBlocks _ _) fun _ => loopFree_pure _
        · cases up with
          | none =>
            refine .inr ⟨?_, fun depth => ?_⟩
            · rintro ⟨_, j, n, h, hj⟩
              rw [hn] at h; cases h
              cases hj
            · simp only [Chain.deallocate, hn, if_neg hp, SR.isAligned_block hval hlt, Outcome.ok_bind,
                if_neg hin]
              exact loopFree_bind (loopFree_abortIf _) fun _ => loopFree_bind (loopFree_abortIf _) fun _ =>
                loopFree_bind (loopFree_abortIf _) fun _ => loopFree_pure _
          | some j =>
            refine .inl ⟨j, ⟨p, s, _, hn, hal, hin⟩, ⟨_, hn, rfl⟩, fun depth => ?_⟩
            simp only [Chain.deallocate, hn, if_neg hp, SR.isAligned_block hval hlt, Outcome.ok_bind,
              if_neg hin, decide_eq_true hal]
            rfl
      · refine .inr ⟨?_, fun depth => ?_⟩
        · rintro ⟨⟨_, _, _, h, hd, _⟩, _⟩
          rw [hn] at h; cases h
          exact hal hd
        · simp only [Chain.deallocate, hn, if_neg hp, SR.isAligned_block hval hlt, Outcome.ok_bind,
            decide_eq_false hal]
          nofun

theorem dealloc_never (hv : ValidNet net) {i ptr : Nat} (hlt : ptr < 2 ^ 64) (hp : ptr ≠ 0) :
    (∀ depth, Chain.deallocate B depth net i ptr = .outOfFuel) ↔
      ∀ k, Upwards net i k → Forwards net ptr k ∧ ∃ j, UpstreamOf net k j := by
  constructor
  · intro h k hk
    induction hk with
    | here i =>
      rcases dealloc_step (B := B) hv (i := i) hlt hp with ⟨j, hf, hj, _⟩ | ⟨_, hne⟩
      · exact ⟨hf, j, hj⟩
      · exact absurd (h 1) (hne 0)
    | @up i m k _ hu _ ih =>
      apply ih
      intro depth
      rcases dealloc_step (B := B) hv (i := i) hlt hp with ⟨j, _, hj, he⟩ | ⟨_, hne⟩
      · obtain ⟨n, hn, hnu⟩ := hj
        obtain ⟨n', hn', hnu'⟩ := hu
        rw [hn] at hn'; cases hn'
        rw [hnu] at hnu'; cases hnu'
        rw [← he]; exact h _
      · exact absurd (h 1) (hne 0)
  · intro h depth
    induction depth generalizing i with
    | zero => rfl
    | succ depth ih =>
      rcases dealloc_step (B := B) hv (i := i) hlt hp with ⟨j, _, hj, he⟩ | ⟨hno, _⟩
      · rw [he]
        exact ih fun k hk => h k (.up trivial hj hk)
      · exact absurd (h i (.here i)) hno

/-! ## Each resource is asked at most once -/

/-- The chain from `i` ends within `d` resources. -/
inductive EndsIn (net : List (Node τ)) : Nat → Nat → Prop
  | last {d i n} : net[i]? = some n → n.upstream = none → EndsIn net (d + 1) i
  | up {d i j} : UpstreamOf net i j → EndsIn net d j → EndsIn net (d + 1) i

theorem endsIn_mono {d d' i : Nat} (hd : d ≤ d') (h : EndsIn net d i) : EndsIn net d' i := by
  induction h generalizing d' with
  | last hn hu =>
    obtain ⟨m, rfl⟩ : ∃ m, d' = m + 1 := ⟨d' - 1, by omega⟩
    exact .last hn hu
  | up hu _ ih =>
    obtain ⟨m, rfl⟩ : ∃ m, d' = m + 1 := ⟨d' - 1, by omega⟩
    exact .up hu (ih (by omega))

theorem no_cycle {i : Nat} (h : ChainEnds net i) : ∀ j, UpstreamOf net i j → Upwards net j i → False := by
  induction h with
  | last hn hu =>
    rintro j ⟨n, hn', hu'⟩ _
    rw [hn] at hn'; cases hn'
    rw [hu] at hu'; cases hu'
  | @up i m hu _ ih =>
    rintro j hj hji
    have e : m = j := by
      obtain ⟨n, hn, hnu⟩ := hj
      obtain ⟨n', hn', hnu'⟩ := hu
      rw [hn] at hn'; cases hn'
      rw [hnu] at hnu'; cases hnu'; rfl
    subst e
    cases hji with
    | here => exact ih _ hj (.here _)
    | up _ hmk hki => exact ih _ hmk (passed_snoc hki trivial hj)

theorem endsIn_length {i : Nat} (h : ChainEnds net i) : EndsIn net net.length i := by
  have key : ∃ l : List Nat, l.Nodup ∧ (∀ x ∈ l, Upwards net i x ∧ x < net.length) ∧
      EndsIn net l.length i := by
    induction h with
    | @last i n hn hu =>
      refine ⟨[i], by simp, fun x hx => ?_, .last hn hu⟩
      cases List.mem_singleton.1 hx
      exact ⟨.here i, (List.getElem?_eq_some_iff.1 hn).1⟩
    | @up i j hu hj ih =>
      obtain ⟨l, hnd, hl, he⟩ := ih
      refine ⟨i :: l, List.nodup_cons.2 ⟨fun hi => ?_, hnd⟩, fun x hx => ?_, .up hu he⟩
      · exact no_cycle (.up hu hj) j hu (hl i hi).1
      · rcases List.mem_cons.1 hx with rfl | hx
        · obtain ⟨n, hn, _⟩ := hu
          exact ⟨.here x, (List.getElem?_eq_some_iff.1 hn).1⟩
        · exact ⟨.up trivial hu (hl x hx).1, (hl x hx).2⟩
  obtain ⟨l, hnd, hl, he⟩ := key
  refine endsIn_mono ?_ he
  have := (List.subperm_of_subset hnd fun x hx => List.mem_range.2 (hl x hx).2).length_le
  simpa using this

/-- `l` are the resources above `i`, up to one without upstream. -/
def Path (net : List (Node τ)) : Nat → List Nat → Prop
  | i, [] => ∃ n, net[i]? = some n ∧ n.upstream = none
  | i, j :: l => UpstreamOf net i j ∧ Path net j l

theorem path_set {k i : Nat} {l : List Nat} {n : Node τ} (hk : k ∉ i :: l) (h : Path net i l) :
    Path (net.set k n) i l := by
  induction l generalizing i with
  | nil =>
    obtain ⟨m, hm, hu⟩ := h
    refine ⟨m, ?_, hu⟩
    rw [List.getElem?_set_ne (by rintro rfl; simp at hk)]
    exact hm
  | cons j l ih =>
    obtain ⟨⟨m, hm, hu⟩, hp⟩ := h
    refine ⟨⟨m, ?_, hu⟩, ih (fun h => hk (.tail _ h)) hp⟩
    rw [List.getElem?_set_ne (by rintro rfl; simp at hk)]
    exact hm

theorem path_of {i : Nat} (h : ChainEnds net i) :
    ∃ l, (i :: l).Nodup ∧ Path net i l ∧ ∀ x ∈ i :: l, Upwards net i x ∧ x < net.length := by
  induction h with
  | @last i n hn hu =>
    refine ⟨[], by simp, ⟨n, hn, hu⟩, fun x hx => ?_⟩
    cases List.mem_singleton.1 hx
    exact ⟨.here i, (List.getElem?_eq_some_iff.1 hn).1⟩
  | @up i j hu hj ih =>
    obtain ⟨l, hnd, hp, hl⟩ := ih
    refine ⟨j :: l, List.nodup_cons.2 ⟨fun hi => ?_, hnd⟩, ⟨hu, hp⟩, fun x hx => ?_⟩
    · exact no_cycle (.up hu hj) j hu (hl i hi).1
    · rcases List.mem_cons.1 hx with rfl | hx
      · obtain ⟨n, hn, _⟩ := hu
        exact ⟨.here x, (List.getElem?_eq_some_iff.1 hn).1⟩
      · exact ⟨.up trivial hu (hl x hx).1, (hl x hx).2⟩

theorem loopFree_check (n : Node τ) (ptr : Nat) : n.checkResult ptr ≠ .outOfFuel := by
  cases n with
  | simple p s up =>
    simp only [Node.checkResult]
    refine loopFree_bind ?_ fun _ => loopFree_assert _ _
    unfold isAligned
    exact loopFree_bind (loopFree_assert _ _) fun _ => loopFree_pure _
  | _ => exact loopFree_pure _

theorem allocate_path {i depth : Nat} {l : List Nat} (hp : Path net i l) (hnd : (i :: l).Nodup)
    (ht : ∀ k ∈ i :: l, ∀ n, net[k]? = some n → n.tryHere B debug loop size align ≠ .outOfFuel)
    (hd : l.length < depth) : Chain.allocate B debug loop depth net i size align ≠ .outOfFuel := by
  induction l generalizing i depth net with
  | nil =>
    obtain ⟨depth, rfl⟩ : ∃ m, depth = m + 1 := ⟨depth - 1, by omega⟩
    obtain ⟨n, hn, hu⟩ := hp
    by_cases hs : size = 0
    · cases n <;> simp [Chain.allocate, hn, hs]
    rw [allocate_succ hn hs]
    have h := ht i (.head _) n hn
    cases hr : n.tryHere B debug loop size align with
    | outOfFuel => exact absurd hr h
    | ok r =>
      have hu' := tryHere_upstream hr
      simp only [Outcome.ok_bind, hu', hu]
      exact loopFree_bind (loopFree_check _ _) fun _ => loopFree_pure _
    | _ => nofun
  | cons j l ih =>
    obtain ⟨depth, rfl⟩ : ∃ m, depth = m + 1 := ⟨depth - 1, by omega⟩
    obtain ⟨⟨n, hn, hu⟩, hp⟩ := hp
    by_cases hs : size = 0
    · cases n <;> simp [Chain.allocate, hn, hs]
    rw [allocate_succ hn hs]
    have h := ht i (.head _) n hn
    obtain ⟨hi, hnd⟩ := List.nodup_cons.1 hnd
    cases hr : n.tryHere B debug loop size align with
    | outOfFuel => exact absurd hr h
    | ok r =>
      have hu' := tryHere_upstream hr
      simp only [Outcome.ok_bind, hu', hu]
      refine loopFree_bind ?_ fun _ => loopFree_bind (loopFree_check _ _) fun _ => loopFree_pure _
      split
      · refine ih (path_set hi hp) hnd (fun k hk m hm => ?_) (by simp at hd; omega)
        rw [List.getElem?_set_ne (by rintro rfl; exact hi hk)] at hm
        exact ht k (.tail _ hk) m hm
      · nofun
    | _ => nofun

theorem dealloc_path {i ptr depth : Nat} {l : List Nat} (hv : ValidNet net) (hlt : ptr < 2 ^ 64)
    (hp : Path net i l) (hd : l.length < depth) : Chain.deallocate B depth net i ptr ≠ .outOfFuel := by
  by_cases h0 : ptr = 0
  · obtain ⟨depth, rfl⟩ : ∃ m, depth = m + 1 := ⟨depth - 1, by omega⟩
    cases hn : net[i]? with
    | none => simp [Chain.deallocate, hn]
    | some n => cases n <;> simp [Chain.deallocate, hn, h0]
  induction l generalizing i depth with
  | nil =>
    obtain ⟨depth, rfl⟩ : ∃ m, depth = m + 1 := ⟨depth - 1, by omega⟩
    rcases dealloc_step (B := B) hv (i := i) hlt h0 with ⟨j, _, ⟨n, hn, hu⟩, _⟩ | ⟨_, h⟩
    · obtain ⟨m, hm, hmu⟩ := hp
      rw [hn] at hm; cases hm
      rw [hu] at hmu; cases hmu
    · exact h depth
  | cons k l ih =>
    obtain ⟨depth, rfl⟩ : ∃ m, depth = m + 1 := ⟨depth - 1, by omega⟩
    rcases dealloc_step (B := B) hv (i := i) hlt h0 with ⟨j, _, ⟨n, hn, hu⟩, he⟩ | ⟨_, h⟩
    · obtain ⟨⟨m, hm, hmu⟩, hp⟩ := hp
      rw [hn] at hm; cases hm
      rw [hu] at hmu; cases hmu
      rw [he]
      exact ih hp (by simp at hd; omega)
    · exact h depth

theorem path_length {i : Nat} {l : List Nat} (hnd : (i :: l).Nodup)
    (h : ∀ x ∈ i :: l, x < net.length) : l.length < net.length := by
  have := (List.subperm_of_subset hnd fun x hx => List.mem_range.2 (h x hx)).length_le
  simp at this
  omega

/-! ## Monotonic resources only -/

theorem mono_make (buffer size : Nat) (up : Option Nat) (h : buffer + size ≤ 2 ^ 63) :
    Monotonic (.mono (Mono.make buffer size) up : Node τ) := by
  unfold Monotonic Mono.make
  refine ⟨?_, ?_⟩
  · simp only; split <;> split <;> omega
  · simp only; intro _; split <;> split <;> omega

theorem mono_try {m : Mono} {up : Option Nat} (hm : Monotonic (.mono m up : Node τ))
    (hsz : size < 2 ^ 63) (hp : IsPow2 align) (hlt : align < 2 ^ 64) :
    (HasRoom m size align ∧ ∃ m' ptr, Monotonic (.mono m' up : Node τ) ∧ ptr ≠ 0 ∧
      (Node.mono m up : Node τ).tryHere B debug loop size align = .ok (.mono m' up, ptr)) ∨
    (¬ HasRoom m size align ∧
      (Node.mono m up : Node τ).tryHere B debug loop size align = .ok (.mono m up, 0)) := by
  obtain ⟨h1, h2⟩ := hm
  by_cases hd : m.data = 0
  · refine .inr ⟨fun h => h.1 hd, ?_⟩
    simp only [Node.tryHere, Res.cassert_pow2 hp hlt, Outcome.ok_bind, Mono.allocateLocal, hd]
    rfl
  · obtain ⟨hdn, hne⟩ := h2 hd
    obtain ⟨r, hr⟩ : ∃ r, LeastMultiple align m.next r := ⟨_, leastMultiple_round (by
      obtain ⟨k, rfl⟩ := hp
      exact Nat.two_pow_pos k)⟩
    have hr63 : r ≤ 2 ^ 63 := by
      obtain ⟨k, rfl⟩ := hp
      have hk : k < 64 := (Nat.pow_lt_pow_iff_right (by decide)).1 hlt
      exact hr.2.2 _ (Nat.pow_dvd_pow 2 (by omega)) (by omega)
    have hall := Res.allocateLocal_all (debug := debug) (size := size) hd hp hlt (by omega) (by omega) hr
    have e1 : (r + size) % 2 ^ 64 = r + size := Nat.mod_eq_of_lt (by omega)
    have e2 : r % 2 ^ 64 = r := Nat.mod_eq_of_lt (by omega)
    rw [e1, e2] at hall
    have hrn : m.next ≤ r := hr.2.1
    by_cases hfit : r + size ≤ m.data + m.size
    · rw [if_pos hfit] at hall
      refine .inl ⟨⟨hd, r, hr, hfit⟩, { m with next := r + size }, r, ⟨h1, fun _ => ⟨?_, hfit⟩⟩, by omega, ?_⟩
      · show m.data ≤ r + size
        omega
      · simp only [Node.tryHere, Res.cassert_pow2 hp hlt, Outcome.ok_bind, hall]
        rfl
    · rw [if_neg hfit] at hall
      refine .inr ⟨?_, ?_⟩
      · rintro ⟨_, r', hr', h⟩
        rw [leastMultiple_unique hr' hr] at h
        exact hfit h
      · simp only [Node.tryHere, Res.cassert_pow2 hp hlt, Outcome.ok_bind, hall]
        rfl

theorem mono_set {i : Nat} {n : Node τ} (h : ∀ n ∈ net, Monotonic n) (hn : Monotonic n) :
    ∀ x ∈ net.set i n, Monotonic x := by
  intro x hx
  rcases List.mem_or_eq_of_mem_set hx with hx | rfl
  · exact h x hx
  · exact hn

/-- A request to a chain that ends comes back. -/
theorem mono_returns {d i : Nat} (hm : ∀ n ∈ net, Monotonic n)
    (hsz : size < 2 ^ 63) (hp : IsPow2 align) (hlt : align < 2 ^ 64) (he : EndsIn net d i) :
    ∃ ptr net', Chain.allocate B debug loop d net i size align = .ok (ptr, net') ∧
      (∀ n ∈ net', Monotonic n) ∧ net'.length = net.length := by
  induction he with
  | @last d i n hn hu =>
    cases n with
    | simple p s up => exact absurd (hm _ (List.mem_of_getElem? hn)) id
    | base t =>
      exact ⟨(B.alloc t size align).1, net.set i (.base (B.alloc t size align).2),
        by simp only [Chain.allocate, hn], mono_set hm trivial, by simp⟩
    | mono m up =>
      cases (show up = none from hu)
      by_cases hs : size = 0
      · exact ⟨0, net, by simp [Chain.allocate, hn, hs], hm, rfl⟩
      rw [allocate_succ hn hs]
      rcases mono_try (B := B) (debug := debug) (loop := loop) (hm _ (List.mem_of_getElem? hn)) hsz hp hlt with
        ⟨_, m', ptr, hm', hp0, ht⟩ | ⟨_, ht⟩
      · rw [ht]
        exact ⟨ptr, net.set i (.mono m' none), by simp [Node.upstream, Node.checkResult], mono_set hm hm', by simp⟩
      · rw [ht]
        exact ⟨0, net.set i (.mono m none), by simp [Node.upstream, Node.checkResult],
          mono_set hm (hm _ (List.mem_of_getElem? hn)), by simp⟩
  | @up d i j hu _ ih =>
    obtain ⟨n, hn, hup⟩ := hu
    cases n with
    | simple p s up => exact absurd (hm _ (List.mem_of_getElem? hn)) id
    | base t => cases hup
    | mono m up =>
      cases (show up = some j from hup)
      by_cases hs : size = 0
      · exact ⟨0, net, by simp [Chain.allocate, hn, hs], hm, rfl⟩
      rw [allocate_succ hn hs]
      rcases mono_try (B := B) (debug := debug) (loop := loop) (hm _ (List.mem_of_getElem? hn)) hsz hp hlt with
        ⟨_, m', ptr, hm', hp0, ht⟩ | ⟨_, ht⟩
      · rw [ht]
        exact ⟨ptr, net.set i (.mono m' (some j)), by simp [Node.upstream, Node.checkResult, hp0],
          mono_set hm hm', by simp⟩
      · rw [ht]
        obtain ⟨ptr, net', h1, h2, h3⟩ := ih
        exact ⟨ptr, net', by simp [Node.upstream, Node.checkResult, set_same hn, h1], h2, h3⟩

theorem mono_dealloc {d i ptr : Nat} (hm : ∀ n ∈ net, Monotonic n) (hi : i < net.length) :
    ∃ net', Chain.deallocate B (d + 1) net i ptr = .ok net' ∧ (∀ n ∈ net', Monotonic n) ∧
      net'.length = net.length := by
  have hn : net[i]? = some net[i] := List.getElem?_eq_getElem hi
  have := hm _ (List.mem_of_getElem? hn)
  revert this hn
  cases net[i] with
  | simple p s up => intro _ h; exact absurd h id
  | base t => intro hn _; exact ⟨net.set i (.base (B.dealloc t ptr)), by simp only [Chain.deallocate, hn],
      mono_set hm trivial, by simp⟩
  | mono m up => intro hn _; exact ⟨_, by simp only [Chain.deallocate, hn], hm, rfl⟩

/-- With monotonic resources only, every request is regular. -/
theorem mono_regular {i : Nat} (hm : ∀ n ∈ net, Monotonic n) (hi : i < net.length)
    (hw : ∀ i j, UpstreamOf net i j → j < net.length)
    (hsz : size < 2 ^ 63) (hp : IsPow2 align) (hlt : align < 2 ^ 64) :
    Regular B debug loop size align net i := by
  intro k hk
  have hkl : k < net.length := by
    clear hm
    induction hk with
    | here i => exact hi
    | up _ hu _ ih => exact ih (hw _ _ hu)
  have hc : ∀ m ptr, PassesCheck net m ptr := by
    intro m ptr p s up h
    exact absurd (hm _ (List.mem_of_getElem? h)) id
  have hn : net[k]? = some net[k] := List.getElem?_eq_getElem hkl
  have := hm _ (List.mem_of_getElem? hn)
  revert this hn
  cases net[k] with
  | simple p s up => intro _ h; exact absurd h id
  | base t => intro hn _; exact .inr ⟨_, _, ⟨_, hn, rfl, .inr rfl⟩, fun m _ => hc m _⟩
  | mono m up =>
    intro hn h
    rcases mono_try (B := B) (debug := debug) (loop := loop) h hsz hp hlt with
      ⟨_, m', ptr, _, hp0, ht⟩ | ⟨_, ht⟩
    · exact .inr ⟨ptr, _, ⟨_, hn, ht, .inl hp0⟩, fun m _ => hc m _⟩
    · cases up with
      | none => exact .inr ⟨0, _, ⟨_, hn, ht, .inr rfl⟩, fun m _ => hc m _⟩
      | some j => exact .inl ⟨⟨_, hn, ht⟩, j, _, hn, rfl⟩

theorem mono_refuses {k j : Nat} (hm : ∀ n ∈ net, Monotonic n)
    (hsz : size < 2 ^ 63) (hp : IsPow2 align) (hlt : align < 2 ^ 64) (hu : UpstreamOf net k j) :
    RefusesItself B debug loop size align net k ↔
      ∃ m, net[k]? = some (.mono m (some j)) ∧ ¬ HasRoom m size align := by
  obtain ⟨n, hn, hup⟩ := hu
  cases n with
  | simple p s up => exact absurd (hm _ (List.mem_of_getElem? hn)) id
  | base t => cases hup
  | mono m up =>
    cases (show up = some j from hup)
    rcases mono_try (B := B) (debug := debug) (loop := loop) (hm _ (List.mem_of_getElem? hn)) hsz hp hlt with
      ⟨hr, m', ptr, _, hp0, ht⟩ | ⟨hr, ht⟩
    · constructor
      · rintro ⟨n, hn', h⟩
        rw [hn] at hn'; cases hn'
        rw [ht] at h
        simp only [Outcome.ok.injEq, Prod.mk.injEq] at h
        exact absurd h.2 hp0
      · rintro ⟨m, hn', h⟩
        rw [hn] at hn'; cases hn'
        exact absurd hr h
    · exact ⟨fun _ => ⟨m, hn, hr⟩, fun _ => ⟨_, hn, ht⟩⟩

theorem mono_never {i : Nat} (hm : ∀ n ∈ net, Monotonic n) (hi : i < net.length)
    (hw : ∀ i j, UpstreamOf net i j → j < net.length) (hs : size ≠ 0)
    (hsz : size < 2 ^ 63) (hp : IsPow2 align) (hlt : align < 2 ^ 64) :
    (∀ depth, Chain.allocate B debug loop depth net i size align = .outOfFuel) ↔
      ∀ k, Upwards net i k → ∃ m j, net[k]? = some (.mono m (some j)) ∧ ¬ HasRoom m size align := by
  have hv : ValidNet net := fun p s up h => absurd (hm _ h) id
  have hiff := returns_iff hv hs (mono_regular (B := B) (debug := debug) (loop := loop) hm hi hw hsz hp hlt)
  constructor
  · intro h
    have hno : ¬ ∃ depth r, Chain.allocate B debug loop depth net i size align = .ok r := by
      rintro ⟨depth, r, hr⟩
      rw [h] at hr; cases hr
    rw [hiff, Classical.not_not] at hno
    intro k hk
    obtain ⟨hr, j, hu⟩ := hno k hk
    obtain ⟨m, hn, h⟩ := (mono_refuses hm hsz hp hlt hu).1 hr
    exact ⟨m, j, hn, h⟩
  · intro h
    refine never hs fun k hk => ?_
    obtain ⟨m, j, hn, h⟩ := h k hk
    have hu : UpstreamOf net k j := ⟨_, hn, rfl⟩
    exact ⟨(mono_refuses hm hsz hp hlt hu).2 ⟨m, hn, h⟩, j, hu⟩

theorem mono_step {depth : Nat} {op : Op τ} (hm : ∀ n ∈ net, Monotonic n) (he : AllChainsEnd net)
    (ho : Ordinary net op) (hb : NotBelow net op) (hop : MonotonicOp op) (hd : net.length ≤ depth) :
    ∃ net', Chain.step B debug loop depth net op = .ok net' ∧ (∀ n ∈ net', Monotonic n) ∧
      net'.length ≤ net.length + 1 ∧ AllChainsEnd net' := by
  have key : ∃ net', Chain.step B debug loop depth net op = .ok net' ∧ (∀ n ∈ net', Monotonic n) ∧
      net'.length ≤ net.length + 1 := by
    cases op with
    | make n =>
      refine ⟨net ++ [n], rfl, fun x hx => ?_, by simp⟩
      rcases List.mem_append.1 hx with hx | hx
      · exact hm x hx
      · cases List.mem_singleton.1 hx
        rcases hop with ⟨b, sz, up, h, rfl⟩ | ⟨t, rfl⟩
        · exact mono_make b sz up h
        · trivial
    | assign i j =>
      obtain ⟨a, b, ha, hb, hc⟩ := ho
      refine ⟨net.set i (a.assign b), by simp only [Chain.step, ha, hb], mono_set hm ?_, by simp⟩
      have h1 := hm a (List.mem_of_getElem? ha)
      have h2 := hm b (List.mem_of_getElem? hb)
      cases a <;> cases b <;> first | exact h2 | exact h1 | exact absurd h1 id
    | allocate i size align =>
      obtain ⟨h1, h2, h3⟩ := hop
      obtain ⟨ptr, net', h, hm', hl⟩ := mono_returns (B := B) (debug := debug) (loop := loop) hm h1 h2 h3
        (endsIn_mono hd (endsIn_length (he i ho)))
      refine ⟨net', ?_, hm', by omega⟩
      simp only [Chain.step, h]
      rfl
    | deallocate i ptr =>
      obtain ⟨depth, rfl⟩ : ∃ m, depth = m + 1 := ⟨depth - 1, by
        have : i < net.length := ho
        omega⟩
      obtain ⟨net', h, hm', hl⟩ := mono_dealloc (B := B) (d := depth) (ptr := ptr) hm ho
      exact ⟨net', h, hm', by omega⟩
  obtain ⟨net', h, h1, h2⟩ := key
  exact ⟨net', h, h1, h2, (step_iff he ho h).2 hb⟩

theorem mono_run {depth : Nat} {ops : List (Op τ)} (hm : ∀ n ∈ net, Monotonic n) (he : AllChainsEnd net)
    (ho : StepsMeet B debug loop depth Ordinary net ops) (hb : StepsMeet B debug loop depth NotBelow net ops)
    (hop : ∀ op ∈ ops, MonotonicOp op) (hd : net.length + ops.length ≤ depth) :
    ∃ net', Chain.run B debug loop depth net ops = .ok net' := by
  induction ops generalizing net with
  | nil => exact ⟨net, rfl⟩
  | cons op ops ih =>
    simp at hd
    obtain ⟨net', h, h1, h2, h3⟩ := mono_step (B := B) (debug := debug) (loop := loop) (depth := depth)
      hm he ho.1 hb.1 (hop op (.head _)) (by omega)
    obtain ⟨net'', h'⟩ := ih h1 h3 (ho.2 _ h) (hb.2 _ h) (fun o ho => hop o (.tail _ ho)) (by omega)
    exact ⟨net'', by simp [Chain.run, h, h']⟩

theorem run_ends {depth : Nat} {ops : List (Op τ)} (he : AllChainsEnd net)
    (ho : StepsMeet B debug loop depth Ordinary net ops) (hb : StepsMeet B debug loop depth NotBelow net ops)
    (h : Chain.run B debug loop depth net ops = .ok net') : AllChainsEnd net' := by
  induction ops generalizing net with
  | nil => cases h; exact he
  | cons op ops ih =>
    simp only [Chain.run, Outcome.bind_eq_ok] at h
    obtain ⟨m, hs, h⟩ := h
    exact ih ((step_iff he ho.1 hs).2 hb.1) (ho.2 _ hs) (hb.2 _ hs) h

end Utils.ChainProofs
