import Verif.Proofs.Diagnostics
import Verif.Props.SimpleResource

/-! # What is printed before an abort (C107, C108) -/

namespace Utils.Diag

variable {sp : Nat → List Char}

/-- `beforeLine` without its line break. -/
def lineWord : List Char := "line: ".toList

theorem text_file : textError ++ textFile = beforeFile := by decide +kernel
theorem text_line : textLine = '\n' :: lineWord := by decide +kernel
theorem before_line : beforeLine = '\n' :: lineWord := by decide +kernel
theorem text_func : textFunc = beforeFunc ++ ['%', 's'] := by decide +kernel
theorem plain_file : '%' ∉ beforeFile := by decide +kernel
theorem plain_line : '%' ∉ lineWord := by decide +kernel
theorem plain_func : '%' ∉ beforeFunc := by decide +kernel
theorem length_file : beforeFile.length = 14 := by decide +kernel
theorem length_word : lineWord.length = 6 := by decide +kernel
theorem length_func : beforeFunc.length = 7 := by decide +kernel

theorem format_split (w : Place) (f : List Char) :
    w.format ++ f = beforeFile ++ (w.file ++ '\n' ::
      (lineWord ++ Nat.toDigits 10 w.line ++ beforeFunc ++ '%' :: 's' :: f)) := by
  rw [Place.format, ← text_file, text_line, text_func]
  simp only [List.append_assoc, List.cons_append, List.nil_append]

theorem plain_rest (n : Nat) : '%' ∉ lineWord ++ Nat.toDigits 10 n ++ beforeFunc := by
  simp only [List.mem_append, plain_line, plain_func, decimal_digits, or_false, not_false_eq_true]

theorem printf_format {w : Place} (hf : '%' ∉ w.file) (f : List Char) (args : List PArg) :
    printf sp (w.format ++ f) (.str w.func :: args) = (printf sp f args).map w.report := by
  rw [format_split, printf_text plain_file, printf_text hf, printf_char (by decide),
    printf_text (plain_rest _), printf_str]
  cases printf sp f args
  · rfl
  · simp only [Option.map_some, Place.report, before_line, List.append_assoc, List.cons_append]

/-- The message as it ought to be: the user's format and arguments, or nothing. -/
def wanted (sp : Nat → List Char) : Option (List Char × List PArg) → Option (List Char)
  | none => some []
  | some (f, args) => printf sp f args

/-- In a file whose name has no `%`, whatever the line, the function, the format and the arguments:
`UTILS_ABORT_IF` does nothing if the condition is false, and otherwise writes the place and the message,
exactly, and aborts.  Missing for the full claim: names with a `%`, see `C107_iff`. -/
theorem C107_message_partial {w : Place} (hf : '%' ∉ w.file) (cond : Bool)
    {m : Option (List Char × List PArg)} {out : List Char} (hm : wanted sp m = some out) :
    abortIfMacro sp w cond m = if cond then .aborts (w.report out) else .returns := by
  cases cond
  · cases m <;> rfl
  · cases m with
    | none =>
      cases hm
      have := printf_format (sp := sp) hf [] [.str []]
      simp only [abortIfMacro, abortIf, this, printf, Option.map_some, if_true]
    | some x =>
      obtain ⟨f, args⟩ := x
      have := printf_more (sp := sp) [.str [], .str []] (show printf sp f args = some out from hm)
      simp [abortIfMacro, abortIf, printf_format hf, this]

/-- What is printed for a format and its arguments, none left over, is right in every file whose name has
no `%` and in no other file. -/
theorem C107_iff {w : Place} {m : Option (List Char × List PArg)} {out : List Char}
    (hm : wanted sp m = some out) (hc : ∀ x, m = some x → conversions x.1 = x.2.length) :
    abortIfMacro sp w true m = .aborts (w.report out) ↔ '%' ∉ w.file := by
  refine ⟨fun h hf => ?_, fun hf => by rw [C107_message_partial hf true hm]; rfl⟩
  have key : ∀ (f : List Char) (args extra : List PArg), printf sp f args = some out →
      conversions f = args.length → (extra.map (PArg.width sp)).sum = 0 →
      abortIf sp true (some (w.format ++ f)) (.str w.func :: (args ++ extra)) =
        .aborts (w.report out) → False := by
    intro f args extra h1 h2 h3 h
    unfold abortIf at h
    simp only [if_true] at h
    split at h
    · rename_i t ht
      cases h
      have l1 := printf_length ht
      have l2 := printf_length h1
      rw [h2, List.take_length] at l2
      have l3 : (((PArg.str w.func :: (args ++ extra)).take (conversions (w.format ++ f))).map
          (PArg.width sp)).sum ≤ w.func.length + (args.map (PArg.width sp)).sum := by
        rw [List.map_take]
        refine Nat.le_trans (sum_take_le _ _) ?_
        simp only [List.map_cons, List.map_append, List.sum_cons, List.sum_append, h3, PArg.width]
        omega
      have l4 : literals (w.format ++ f) + 1 ≤ 14 + w.file.length + 1 +
          (6 + (Nat.toDigits 10 w.line).length + 7 + literals f) := by
        rw [format_split, literals_text plain_file]
        have e3 := literals_line w.file.length w.file
          (lineWord ++ Nat.toDigits 10 w.line ++ beforeFunc ++ '%' :: 's' :: f)
          (Nat.le_refl _)
        rw [if_pos hf, literals_text (plain_rest _)] at e3
        have e4 : literals ('%' :: 's' :: f) = literals f := by simp [literals]
        simp only [List.length_append, length_word, length_func] at e3
        rw [length_file]
        omega
      have l5 : (w.report out).length = 14 + w.file.length + 7 + (Nat.toDigits 10 w.line).length + 7 +
          w.func.length + out.length := by
        simp only [Place.report, List.length_append, length_file, length_func, before_line,
          List.length_cons, length_word]
      omega
    · cases h
  cases m with
  | none => exact key [] [] [.str []] (by cases hm; rfl) rfl rfl h
  | some x => exact key x.1 x.2 [.str [], .str []] hm (hc x rfl) rfl h

/-- `abort_if` itself, with or without a format: it returns iff the condition is false, and without a
format it prints nothing. -/
theorem C107_returns (sp : Nat → List Char) (cond : Bool) (fmt : Option (List Char)) (args : List PArg) :
    (abortIf sp cond fmt args = .returns ↔ cond = false) ∧
    (abortIf sp cond none args = if cond then .aborts [] else .returns) := by
  cases cond with
  | false => simp [abortIf]
  | true =>
    cases fmt with
    | none => simp [abortIf]
    | some f => cases h : printf sp f args <;> simp [abortIf, h]

/-- The full claim is false: in a file `50%s.cpp` the function is printed where the name of the file
belongs, and in a file `50%d.cpp` the behaviour is undefined. -/
theorem C107_counterexample :
    abortIfMacro (fun _ => []) ⟨"50%s.cpp".toList, 7, "f()".toList⟩ true none =
      .aborts "[ERROR]\nfile: 50f().cpp\nline: 7\nfunc: ".toList ∧
    abortIfMacro (fun _ => []) ⟨"50%d.cpp".toList, 7, "f()".toList⟩ true none = .undefined := by
  constructor <;> decide +kernel

/-- A message with arguments; the function has a `%` in its name, which does no harm. -/
example : abortIfMacro (fun _ => []) ⟨"a.cpp".toList, 12, "operator%".toList⟩ true
      (some ("\n%d of %s: 100%%".toList, [.pass .short (-3), .str "x".toList])) =
    .aborts "[ERROR]\nfile: a.cpp\nline: 12\nfunc: operator%\n-3 of x: 100%".toList ∧
    '%' ∉ "a.cpp".toList ∧
    conversions "\n%d of %s: 100%%".toList = 2 := by
  refine ⟨?_, ?_, ?_⟩ <;> decide +kernel

end Utils.Diag

namespace Utils.SR

open Utils.Diag Utils.Props Utils.Bits

variable {p : Params} {σ : Type} {up : Option (Upstream σ)} {sp : Nat → List Char}

theorem Valid.width_iff (hv : Valid p) : (p.width = 8 ∨ p.width = 16 ∨ p.width = 32 ∨ p.width = 64) ∧
    (p.width ≤ 32 ↔ p.maxBlocks ≤ 2 ^ 32) ∧ (p.width ≤ 16 ↔ p.maxBlocks ≤ 2 ^ 16) := by
  obtain ⟨k, hk⟩ := hv.pow2
  have hp := Nat.two_pow_pos k
  have h2 := hv.two
  have hlt : p.maxBlocks < 2 ^ 64 := by
    have := hv.area
    have : p.maxBlocks * 1 ≤ p.maxBlocks * p.blockSize := Nat.mul_le_mul_left _ (by omega)
    omega
  have hb := bitsCount_bitLength (BitVec.ofNat 64 (p.maxBlocks - 1))
  have hle := bitsCount_le (BitVec.ofNat 64 (p.maxBlocks - 1))
  have ht : (BitVec.ofNat 64 (p.maxBlocks - 1)).toNat = p.maxBlocks - 1 := by
    rw [BitVec.toNat_ofNat, Nat.mod_eq_of_lt (by omega)]
  rw [ht] at hb
  unfold Params.width
  generalize bitsCount (BitVec.ofNat 64 (p.maxBlocks - 1)) = b at *
  have hb1 := hb.1
  have hp2 : ∀ w, b ≤ w → 2 ^ b ≤ 2 ^ w := fun w h => Nat.pow_le_pow_right (by decide) h
  have hb0 : b ≠ 0 := by
    rintro rfl
    simp at hb1
    omega
  have h3 : ∀ w, p.maxBlocks - 1 < 2 ^ w → b ≤ w := hb.2
  have e16 : b ≤ 16 ↔ p.maxBlocks ≤ 2 ^ 16 :=
    ⟨fun h => by have := hp2 16 h; omega, fun h => h3 16 (by omega)⟩
  have e32 : b ≤ 32 ↔ p.maxBlocks ≤ 2 ^ 32 :=
    ⟨fun h => by have := hp2 32 h; omega, fun h => h3 32 (by omega)⟩
  rw [← e16, ← e32]
  clear e16 e32 h3 hp2
  unfold uintFromNbits
  split
  · simp; omega
  · split
    · simp; omega
    · split
      · simp; omega
      · split
        · simp; omega
        · omega

/-- `deallocate` aborts exactly if there is a message, and the message is true. -/
theorem C108_reason (hv : Valid p) {w : World σ} {rs : List Region} (h : Tracks p up w rs)
    {ptr : Nat} (hlt : ptr < 2 ^ 64) :
    (deallocate p up w.st w.up ptr = .aborted ↔ (deallocateSays p up.isSome w.st ptr).isSome = true) ∧
    ∀ m, deallocateSays p up.isSome w.st ptr = some m → m.TrueOf p up w ptr := by
  by_cases h0 : ptr = 0
  · subst h0
    refine ⟨?_, fun m hm => ?_⟩
    · simp [deallocate, deallocateSays, pure]
    · simp [deallocateSays] at hm
  have hB := hv.pos
  have hnw := h.placed.noWrap
  have hle := h.placed.le
  have g2 : w.st.blockCount * p.blockSize ≤ p.maxBlocks * p.blockSize := Nat.mul_le_mul_right _ hle
  rw [C54_aborts_iff hv h h0 hlt]
  unfold deallocateSays
  rw [if_neg h0, size_eq hv h.placed, Nat.mod_eq_of_lt (by omega : w.st.data + w.st.blockCount * p.blockSize < 2 ^ 64)]
  by_cases hal : p.blockSize ∣ ptr
  swap
  · rw [if_pos (fun e => hal (Nat.dvd_of_mod_eq_zero e))]
    refine ⟨by simp [hal], fun m hm => ?_⟩
    cases hm
    exact ⟨rfl, hal⟩
  rw [if_neg (fun e => e (Nat.mod_eq_zero_of_dvd hal))]
  by_cases ha : inArea p w.st ptr = true
  · obtain ⟨i1, i2⟩ := inArea_iff.1 ha
    rw [if_pos ⟨i1, i2⟩]
    obtain ⟨i, hi⟩ : ∃ i, ptr = w.st.data + i * p.blockSize := by
      obtain ⟨c, hc⟩ := Nat.dvd_sub hal h.placed.aligned
      exact ⟨c, by rw [Nat.mul_comm c]; omega⟩
    have hin : i < w.st.blockCount := by
      apply Nat.lt_of_mul_lt_mul_right (a := p.blockSize)
      omega
    have e : p.trunc ((ptr - w.st.data) / p.blockSize) = i := by
      rw [hi, Nat.add_sub_cancel_left, Nat.mul_div_cancel _ hB, hv.trunc_eq (by omega)]
    simp only [e]
    have key := C54_aborts_iff hv h h0 hlt
    cases hu : w.st.inUse i with
    | true =>
      have hx : ∃ x ∈ w.live, x.1 = ptr := by
        obtain ⟨pre, len, post, e1, e2⟩ := (tiled_iff.1 h.tiled).1.inUse_head hin hu
        have hm : (ptr, len) ∈ ((busyRuns 0 rs).map fun r => (w.st.data + r.1 * p.blockSize, r.2)) := by
          refine List.mem_map.2 ⟨(blocks pre, len), ?_, by rw [hi, e2]⟩
          rw [e1, busyRuns_append, busyRuns_busy, Nat.zero_add]
          simp
        obtain ⟨x, hx, hx2⟩ := List.mem_map.1 (h.live.mem_iff.2 hm)
        exact ⟨x, (List.mem_filter.1 hx).1, (Prod.mk.inj hx2).1⟩
      obtain ⟨x, hx, hxp⟩ := hx
      refine ⟨?_, fun m hm => by simp at hm⟩
      simp only [if_true, Option.isSome_none, Bool.false_eq_true, iff_false]
      rintro (h1 | ⟨-, h1⟩ | ⟨h1, -⟩)
      · exact h1 hal
      · exact h1 x hx hxp
      · rw [ha] at h1; cases h1
    | false =>
      have ab : deallocate p up w.st w.up ptr = .aborted := by
        unfold deallocate
        rw [if_neg h0, isAligned_block hv hlt, Outcome.ok_bind, decide_eq_true hal, Bool.not_true,
          abortIf_false, Outcome.ok_bind, size_eq hv h.placed, Nat.mod_eq_of_lt (by omega),
          if_pos ⟨i1, i2⟩, hi, pointerToBlockIndex_ok hv h.placed (by omega),
          Nat.mul_div_cancel _ hB, Outcome.ok_bind]
        unfold deallocateBlocks
        rw [decide_eq_true hin, cassert_true, Outcome.ok_bind, inUseAt_ok hin hle, Outcome.ok_bind, hu]
        rfl
      have hd := key.1 ab
      refine ⟨iff_of_true hd (by simp), fun m hm => ?_⟩
      simp only [Bool.false_eq_true, if_false, Option.some.injEq] at hm
      subst hm
      refine ⟨hi, hin, ?_⟩
      rcases hd with h1 | ⟨-, h1⟩ | ⟨h1, -⟩
      · exact absurd hal h1
      · exact h1
      · rw [ha] at h1; cases h1
  · have ha' : inArea p w.st ptr = false := by simpa using ha
    rw [if_neg (fun hh => ha (inArea_iff.2 hh))]
    cases up with
    | some U => simp [hal, ha']
    | none =>
      have hout : ¬ (w.st.data ≤ ptr ∧ ptr < w.st.data + w.st.blockCount * p.blockSize) :=
        fun hh => ha (inArea_iff.2 hh)
      by_cases hd : ptr < w.st.data
      · simp only [Option.isSome_none, Bool.false_eq_true, if_false, if_pos hd]
        refine ⟨by simp [ha'], fun m hm => ?_⟩
        cases hm
        exact ⟨rfl, rfl, hd, rfl⟩
      · have he : w.st.data + w.st.blockCount * p.blockSize ≤ ptr := by omega
        simp only [Option.isSome_none, Bool.false_eq_true, if_false, if_neg hd, if_pos he]
        refine ⟨by simp [ha'], fun m hm => ?_⟩
        cases hm
        exact ⟨rfl, rfl, he, rfl⟩

/-- A double free and a pointer outside the area. -/
example : deallocateSays pDebug false (fresh pDebug 4096 32) 4104 = some (.notAllocated 1) ∧
    deallocateSays pDebug false (fresh pDebug 4096 32) 4088 = some (.below 4088 4096) ∧
    deallocateSays pDebug false (fresh pDebug 4096 32) 4097 = some (.unaligned 4097) := by
  refine ⟨?_, ?_, ?_⟩ <;> decide +kernel

/-- The destructor aborts exactly if there is a message, and the message has the number of regions in
use. -/
theorem C108_destructor {s : State} (m : Message) :
    destroy s = .aborted ∧ m = .destroyed s.busyCount ↔ destroySays s = some m := by
  unfold destroy destroySays
  by_cases h : s.busyCount = 0
  · simp [h, abortIf]
  · simp [h, abortIf, eq_comm]

/-- A format with two pointers. -/
theorem printf_two {A B C : List Char} (hA : '%' ∉ A) (hB : '%' ∉ B) (hC : '%' ∉ C) (q d : Nat) :
    printf sp (A ++ '%' :: 'p' :: (B ++ '%' :: 'p' :: C)) [.ptr q, .ptr d] =
      some (A ++ sp q ++ B ++ sp d ++ C) := by
  have h : printf sp C [] = some C := by
    have := printf_text (sp := sp) hC [] []
    simpa [printf] using this
  rw [printf_text hA, printf, printf_text hB, printf, h]
  simp

theorem printf_one {A C : List Char} (hA : '%' ∉ A) (hC : '%' ∉ C) (a : PArg) :
    printf sp (A ++ '%' :: 'd' :: C) [a] = (readInt .int .uint a).map fun t => A ++ t ++ C := by
  have h : printf sp C [] = some C := by
    have := printf_text (sp := sp) hC [] []
    simpa [printf] using this
  rw [printf_text hA, printf, h]
  cases readInt .int .uint a <;> simp

theorem decimal_nat (n : Nat) : decimal (n : Int) = Nat.toDigits 10 n := by
  unfold decimal
  rw [if_neg (by omega), Int.natAbs_natCast]

/-- An index passed to `%d`. -/
theorem readInt_index (hv : Valid p) {i : Nat} (hi : i < p.maxBlocks) :
    readInt .int .uint (.pass p.indexTy i) =
      if p.maxBlocks ≤ 2 ^ 32 ∧ i < 2 ^ 31 then some (Nat.toDigits 10 i) else none := by
  obtain ⟨h1, h2, h3⟩ := hv.width_iff
  rw [← decimal_nat]
  simp only [← h2]
  unfold Params.indexTy
  rcases h1 with e | e | e | e
  · have : p.maxBlocks ≤ 2 ^ 16 := h3.1 (by omega)
    rw [if_pos e, if_pos ⟨by omega, by omega⟩]
    simp [PArg.pass, CTy.promote, readInt]
  · have : p.maxBlocks ≤ 2 ^ 16 := h3.1 (by omega)
    rw [if_neg (by omega), if_pos e, if_pos ⟨by omega, by omega⟩]
    simp [PArg.pass, CTy.promote, readInt]
  · rw [if_neg (by omega), if_neg (by omega), if_pos e]
    have : p.maxBlocks ≤ 2 ^ 32 := h2.1 (by omega)
    simp only [PArg.pass, CTy.promote, readInt, CTy.InRange, CTy.minVal, CTy.maxVal, CTy.signed, CTy.width]
    by_cases hlt : i < 2 ^ 31
    · rw [if_pos, if_pos ⟨by omega, hlt⟩]
      left
      simp
      omega
    · rw [if_neg, if_neg (by omega)]
      simp
      omega
  · rw [if_neg (by omega), if_neg (by omega), if_neg (by omega), if_neg (by omega)]
    simp [PArg.pass, CTy.promote, readInt]

theorem readInt_size (v : Int) : readInt .int .uint (.pass .ulong v) = none := by
  simp [PArg.pass, CTy.promote, readInt]

/-- The pieces of the formats. -/
def beforePointer : List Char := "\nreason: deallocating pointer(".toList
def middleLeft : List Char := ") is less than simple_resource's left boundary(".toList
def middleRight : List Char := ") is more than simple_resource's right boundary(".toList
def closing : List Char := ")".toList
def beforeBlock : List Char := "\nreason: trying to deallocate block(".toList
def afterBlock : List Char := ") that was not marked as allocated".toList
def beforeBusy : List Char := "\nreason: simple_resource is being destroyed while ".toList
def afterBusy : List Char := " of its regions are in use.".toList
def beforeSize : List Char := "\nreason: pointer(".toList
def middleSize : List Char := ") which is being deallocated must be aligned at least as one block size(".toList

theorem call_below (q d : Nat) : (Message.below q d).call p =
    (beforePointer ++ '%' :: 'p' :: (middleLeft ++ '%' :: 'p' :: closing), [.ptr q, .ptr d]) := by
  have : "\nreason: deallocating pointer(%p) is less than simple_resource's left boundary(%p)".toList =
    beforePointer ++ '%' :: 'p' :: (middleLeft ++ '%' :: 'p' :: closing) := by decide +kernel
  exact congrArg (·, _) this

theorem call_above (q d : Nat) : (Message.above q d).call p =
    (beforePointer ++ '%' :: 'p' :: (middleRight ++ '%' :: 'p' :: closing), [.ptr q, .ptr d]) := by
  have : "\nreason: deallocating pointer(%p) is more than simple_resource's right boundary(%p)".toList =
    beforePointer ++ '%' :: 'p' :: (middleRight ++ '%' :: 'p' :: closing) := by decide +kernel
  exact congrArg (·, _) this

theorem call_block (i : Nat) : (Message.notAllocated i).call p =
    (beforeBlock ++ '%' :: 'd' :: afterBlock, [.pass p.indexTy i]) := by
  have : "\nreason: trying to deallocate block(%d) that was not marked as allocated".toList =
    beforeBlock ++ '%' :: 'd' :: afterBlock := by decide +kernel
  exact congrArg (·, _) this

theorem call_busy (b : Nat) : (Message.destroyed b).call p =
    (beforeBusy ++ '%' :: 'd' :: afterBusy, [.pass .ulong b]) := by
  have : "\nreason: simple_resource is being destroyed while %d of its regions are in use.".toList =
    beforeBusy ++ '%' :: 'd' :: afterBusy := by decide +kernel
  exact congrArg (·, _) this

theorem call_size (q : Nat) : (Message.unaligned q).call p =
    (beforeSize ++ '%' :: 'p' :: (middleSize ++ '%' :: 'd' :: closing),
      [.ptr q, .pass .ulong p.blockSize]) := by
  have : "\nreason: pointer(%p) which is being deallocated must be aligned at least as one block size(%d)".toList =
    beforeSize ++ '%' :: 'p' :: (middleSize ++ '%' :: 'd' :: closing) := by decide +kernel
  exact congrArg (·, _) this

theorem plain_pieces : '%' ∉ beforePointer ∧ '%' ∉ middleLeft ∧ '%' ∉ middleRight ∧ '%' ∉ closing ∧
    '%' ∉ beforeBlock ∧ '%' ∉ afterBlock ∧ '%' ∉ beforeBusy ∧ '%' ∉ afterBusy ∧ '%' ∉ beforeSize ∧
    '%' ∉ middleSize := by decide +kernel

/-- Messages about pointers outside the area are printed right, and so is the index of a block if `BIndex`
has at most 32 bits and the index fits an `int`.  Missing for the full claim: the other messages, see
`C108_undefined`. -/
theorem C108_text_partial (hv : Valid p) {m : Message}
    (hm : match m with
      | .destroyed _ | .unaligned _ => False
      | .below _ _ | .above _ _ => True
      | .notAllocated i => i < p.maxBlocks ∧ p.maxBlocks ≤ 2 ^ 32 ∧ i < 2 ^ 31)
    {w : Place} (hf : '%' ∉ w.file) :
    abortIfMacro sp w true (some (m.call p)) = .aborts (w.report (m.text p sp)) := by
  obtain ⟨h1, h2, h3, h4, h5, h6, -⟩ := plain_pieces
  refine C107_message_partial hf true ?_
  cases m with
  | destroyed b => exact hm.elim
  | unaligned q => exact hm.elim
  | below q d => rw [call_below]; exact printf_two h1 h2 h4 q d
  | above q e => rw [call_above]; exact printf_two h1 h3 h4 q e
  | notAllocated i =>
    rw [call_block]
    refine (printf_one h5 h6 _).trans ?_
    rw [readInt_index hv hm.1, if_pos hm.2]
    rfl

/-- In all other cases the behaviour is undefined, whatever the values: `%d` asks for an `int`. -/
theorem C108_undefined (hv : Valid p) {m : Message}
    (hm : match m with
      | .destroyed _ | .unaligned _ => True
      | .below _ _ | .above _ _ => False
      | .notAllocated i => i < p.maxBlocks ∧ ¬ (p.maxBlocks ≤ 2 ^ 32 ∧ i < 2 ^ 31))
    {w : Place} (hf : '%' ∉ w.file) : abortIfMacro sp w true (some (m.call p)) = .undefined := by
  obtain ⟨-, -, -, h4, h5, h6, h7, h8, h9, h10⟩ := plain_pieces
  have key : ∀ c : List Char × List PArg,
      printf sp c.1 (c.2 ++ [.str [], .str []]) = none → abortIfMacro sp w true (some c) = .undefined := by
    intro c hc
    simp only [abortIfMacro, Diag.abortIf, printf_format hf, hc, Option.map_none, if_true]
  refine key _ ?_
  cases m with
  | destroyed b =>
    rw [call_busy, List.singleton_append, printf_text h7, printf, readInt_size]
    rfl
  | unaligned q =>
    rw [call_size, List.cons_append, List.singleton_append, printf_text h9, printf, printf_text h10, printf,
      readInt_size]
    rfl
  | below q d => exact hm.elim
  | above q e => exact hm.elim
  | notAllocated i =>
    rw [call_block, List.singleton_append, printf_text h5, printf, readInt_index hv hm.1, if_neg hm.2]
    rfl

/-- The full claim is false: a resource that is destroyed while one region is in use. -/
theorem C108_counterexample :
    ∃ w', run pDebug none 1000 (⟨fresh pDebug 4096 32, (), []⟩ : World Unit) [.alloc 1 1] = .ok w' ∧
      destroySays w'.st = some (.destroyed 1) ∧
      abortIfMacro sp ⟨"a.cpp".toList, 1, "f()".toList⟩ true (some ((Message.destroyed 1).call pDebug)) =
        .undefined := by
  have hv := pDebug_valid
  have e : ((run pDebug none 1000 (⟨fresh pDebug 4096 32, (), []⟩ : World Unit) [.alloc 1 1]).map
      fun w => destroySays w.st) = .ok (some (.destroyed 1)) := by decide +kernel
  generalize run pDebug none 1000 (⟨fresh pDebug 4096 32, (), []⟩ : World Unit) [.alloc 1 1] = o at *
  cases o with
  | ok w' =>
    refine ⟨w', rfl, ?_, C108_undefined hv (m := .destroyed 1) trivial (by decide +kernel)⟩
    injection e
  | _ => cases e

/-- Messages that are printed right, in resources with 32 blocks and with `2 ^ 33` blocks; in the latter no
index is. -/
example : Valid pDebug ∧ Valid ⟨2 ^ 33, 8, false⟩ ∧
    printf (fun _ => "0x1008".toList) ((Message.notAllocated 7).call pDebug).1
        ((Message.notAllocated 7).call pDebug).2 =
      some "\nreason: trying to deallocate block(7) that was not marked as allocated".toList ∧
    ¬ ((2 : Nat) ^ 33 ≤ 2 ^ 32 ∧ 7 < 2 ^ 31) :=
  ⟨pDebug_valid, ⟨⟨3, rfl⟩, by decide, by decide⟩, by decide +kernel, by decide⟩

end Utils.SR
