import Verif.Proofs.Format
import Verif.Proofs.Conv

/-!
# `sprintf` and the messages of the library (C57)
-/

namespace Coil
open Spec Fmt

/-- **C57.** Whenever the C library can make the text and it is shorter than 2^31 bytes, `sprintf` returns a string with exactly
that text followed by a NUL, in a block of its own; all blocks that existed keep their contents, and no other block is
left behind. -/
theorem C57_sprintf (m : Mem UInt8) {f : Bytes} {as : List FArg} {t : Bytes} (hf : format f as = .ok t) (hl : t.length < 2 ^ 31) :
    ∃ m' buf b c, vsprintf m f as = .ok (m', buf) ∧ buf.ptr = some b ∧ m'.heap[b]? = some (some c) ∧
      Str.length buf = t.length ∧ c.take (t.length + 1) = (t ++ [0]).map some ∧ m.heap.length ≤ b ∧
      (∀ b', b' < m.heap.length → m'.heap[b']? = m.heap[b']?) ∧
      (∀ b' c', m.heap.length ≤ b' → m'.heap[b']? = some (some c') → b' = b) := by
  obtain ⟨m', buf, h1, h2, h3, h4⟩ := vsprintf_spec m hf hl
  rcases h2 with ⟨rfl, _⟩ | ⟨b, c, k1, k2, k3, k4, k5, k6, k7, k8, k9⟩
  · simp [Buf.null] at h4
  · refine ⟨m', buf, b, c, h1, k1, k2, by simpa using k5, ?_, ?_, ?_, ?_⟩
    · simp only [List.length_map] at k7 k9
      apply List.ext_getElem?
      intro i
      rw [List.getElem?_take]
      split
      · rename_i hi
        by_cases hit : i < t.length
        · have : ((t ++ [0]).map some)[i]? = (t.map some)[i]? := by
            rw [List.map_append, List.getElem?_append_left (by simpa using hit)]
          rw [this]
          have e : (t.map some)[i]? = some (some t[i]) := by simp [hit]
          rw [e]
          exact k8 i _ e
        · have : i = t.length := by omega
          subst this
          rw [k9 (by omega)]
          simp
      · rename_i hi
        rw [List.getElem?_eq_none (by simp; omega)]
    · rcases h3.fresh b k1 with h | h
      · simp [Buf.null] at h
      · exact h
    · intro b' hb'
      exact h3.other b' hb' (by simp [Buf.null])
    · intro b' c' hb' hc'
      rcases h3.live b' c' hc' with h | ⟨h, _⟩
      · rw [k1] at h
        cases h
        rfl
      · omega

/-- Two formatted messages in one memory: the second does not touch the first. -/
example : (do
    let (m1, b1) ← vsprintf ⟨[], 0, 0⟩ (lit "%d%%|%c") [.int (-5), .int (-1)]
    let (m2, b2) ← vsprintf m1 (lit "<%.*s>") [.int 2, .ptr (lit "xyz")]
    let t1 ← Str.text m2 b1
    let t2 ← Str.text m2 b2
    Res.ok (t1, t2)) = .ok ((lit "-5%|" ++ [255]).map some, (lit "<xy>").map some) := by
  decide +kernel

/-- **C57 (plain text).** A format without `%` stands for itself. -/
theorem C57_plain {f : Bytes} (h : (37 : UInt8) ∉ f) (as : List FArg) : format f as = .ok f := by
  unfold format
  rw [compile_plain h _ _ (by omega)]
  simp [output]

example : format (lit "No function name is specified") [] = .ok (lit "No function name is specified") :=
  C57_plain (by decide +kernel) []

section Messages

variable {rest rest' rest'' : Bytes}

/-- **C57 (an unknown command).** -/
theorem C57_no_function {name : Bytes} (h : name.length < 2 ^ 31) :
    format fNoFunction (viewArgs name.length (name ++ rest)) =
      .ok (lit "No function '" ++ cstr name ++ lit "' is registered") := by
  have : compile (fNoFunction.length + 1) fNoFunction [] =
      some [.text (lit "No function '"), .dir .precS, .text (lit "' is registered")] := by decide +kernel
  simp [format, this, output, convert, viewArgs, precText_view h]

/-- **C57 (an exception).** `what` is the text that `ex.what()` points to. -/
theorem C57_exception (what : Bytes) :
    format fException [.ptr (what ++ 0 :: rest)] = .ok (lit "Exception caught during execution: " ++ cstr what) := by
  have : compile (fException.length + 1) fException [] =
      some [.text (lit "Exception caught during execution: "), .dir .s, .text []] := by decide +kernel
  simp [format, this, output, convert, strText_nul]

/-- **C57 (wrong number of arguments).** The list of counts is a `String`, hence has a NUL after it. -/
theorem C57_count {W C D : Type} (P : C → FunctorDef W C D) (fs : List (Inst C D)) {name : Bytes} (n : Nat)
    (h : name.length < 2 ^ 31) :
    format fCount (viewArgs name.length (name ++ rest) ++
        [.ptr (countsLoop fs.length (fs.map (arity P)) 0 [] ++ 0 :: rest'), .size n]) = .ok (countError P name fs n) := by
  have : compile (fCount.length + 1) fCount [] =
      some [.text (lit "Wrong number of arguments to '"), .dir .precS, .text (lit "': expected "), .dir .s,
        .text (lit ", got "), .dir .zu, .text []] := by decide +kernel
  simp [format, this, output, convert, viewArgs, precText_view h, strText_nul, countError]

/-- **C57 (a missing named argument).** -/
theorem C57_missing {key : Bytes} (h : key.length < 2 ^ 31) :
    format fMissing (viewArgs key.length (key ++ rest)) = .ok (lit "Missing named argument '" ++ cstr key ++ lit "'") := by
  have : compile (fMissing.length + 1) fMissing [] =
      some [.text (lit "Missing named argument '"), .dir .precS, .text (lit "'")] := by decide +kernel
  simp [format, this, output, convert, viewArgs, precText_view h]

/-- **C57 (conversion errors).** The format of Coil.cpp 488 or 490, depending on whether there are details. -/
theorem C57_convert (v : Value) {typeName details : Bytes} (h : typeName.length < 2 ^ 31) (h' : details.length < 2 ^ 31) :
    (if details = [] then format fConvert (.ptr (v.str ++ 0 :: rest) :: viewArgs typeName.length (typeName ++ rest'))
      else format fConvertDetails (.ptr (v.str ++ 0 :: rest) :: (viewArgs typeName.length (typeName ++ rest') ++
        viewArgs details.length (details ++ rest'')))) = .ok (genericError typeName v details) := by
  have e1 : compile (fConvert.length + 1) fConvert [] =
      some [.text (lit "Unable to convert '"), .dir .s, .text (lit "' to type '"), .dir .precS, .text (lit "'")] := by
    decide +kernel
  have e2 : compile (fConvertDetails.length + 1) fConvertDetails [] =
      some [.text (lit "Unable to convert '"), .dir .s, .text (lit "' to type '"), .dir .precS, .text (lit "': "),
        .dir .precS, .text []] := by decide +kernel
  split
  · rename_i hd
    simp [format, e1, output, convert, viewArgs, precText_view h, strText_nul, genericError, hd]
  · rename_i hd
    simp [format, e2, output, convert, viewArgs, precText_view h, precText_view h', strText_nul, genericError, hd]

/-- **C57 (wrong number of sub-values).** The details are made by `sprintf` and passed on as a view. -/
theorem C57_subvalues (v : Value) (typeName : Bytes) (n : Nat) :
    ∃ d, format fSubvalues [.size n, .size v.subvalues.length] = .ok d ∧ d ≠ [] ∧ genericError typeName v d = mismatchError typeName v n := by
  have : compile (fSubvalues.length + 1) fSubvalues [] =
      some [.text (lit "Expected "), .dir .zu, .text (lit " subvalues, got "), .dir .zu, .text []] := by decide +kernel
  have hne : lit "Expected " ≠ [] := by decide +kernel
  exact ⟨lit "Expected " ++ natDec n ++ lit " subvalues, got " ++ natDec v.subvalues.length,
    by simp [format, this, output, convert], by simp [hne], rfl⟩

/-- **C57 (delimiters).** For both kinds of `char`, `%c` prints the byte itself. -/
theorem C57_delimiters (charSigned : Bool) (c : Byte) :
    format fQuote [.int (promote charSigned c)] = .ok (errQuote c) ∧ format fGroup [.int (promote charSigned c)] = .ok (errGroup c) := by
  have e1 : compile (fQuote.length + 1) fQuote [] =
      some [.text (lit "Token '"), .dir .c, .text (lit "' doesn't have a corresponding opening/closing quote")] := by decide +kernel
  have e2 : compile (fGroup.length + 1) fGroup [] =
      some [.text (lit "Token '"), .dir .c, .text (lit "' doesn't have a corresponding opening/closing token")] := by decide +kernel
  constructor
  · simp [format, e1, output, convert, promote_byte, errQuote]
  · simp [format, e2, output, convert, promote_byte, errGroup]

/-- **C57 (unexpected first token).** -/
theorem C57_unexpected {t : Bytes} (h : t.length < 2 ^ 31) :
    format fUnexpected (viewArgs t.length (t ++ rest)) =
      .ok (lit "Unexpected token '" ++ cstr t ++ lit "' at the beginning of the expression") := by
  have : compile (fUnexpected.length + 1) fUnexpected [] =
      some [.text (lit "Unexpected token '"), .dir .precS, .text (lit "' at the beginning of the expression")] := by decide +kernel
  simp [format, this, output, convert, viewArgs, precText_view h]

end Messages

/-- **C57 (numbers).** Printing an integer, for every integer type. -/
theorem C57_numbers (t : IntType) (v : Int) : format (intFormat t).1 [(intFormat t).2 v] = .ok (t.toString v) := by
  have e1 : compile (fInt.length + 1) fInt [] = some [.text [], .dir .d, .text []] := by decide +kernel
  have e2 : compile (fUInt.length + 1) fUInt [] = some [.text [], .dir .u, .text []] := by decide +kernel
  have e3 : compile (fLong.length + 1) fLong [] = some [.text [], .dir .ld, .text []] := by decide +kernel
  have e4 : compile (fULong.length + 1) fULong [] = some [.text [], .dir .lu, .text []] := by decide +kernel
  have e5 : compile (fLLong.length + 1) fLLong [] = some [.text [], .dir .lld, .text []] := by decide +kernel
  have e6 : compile (fULLong.length + 1) fULLong [] = some [.text [], .dir .llu, .text []] := by decide +kernel
  cases t <;> simp [format, intFormat, e1, e2, e3, e4, e5, e6, output, convert, IntType.toString]

/-- **C57, negation (long texts).** A text of 2^31 bytes or more: the terminator is written outside the new buffer. -/
theorem C57_long_false (m : Mem UInt8) {f : Bytes} {as : List FArg} {t : Bytes} (hf : format f as = .ok t) (hl : 2 ^ 31 ≤ t.length) :
    vsprintf m f as = .ub .oobWrite := vsprintf_long m hf hl

/-- Such texts exist: an exception whose text is long enough. -/
theorem C57_long_exception_false (m : Mem UInt8) (n : Nat) (hn : 2 ^ 31 ≤ n) :
    vsprintf m fException [.ptr (List.replicate n 97 ++ [0])] = .ub .oobWrite := by
  refine C57_long_false m (C57_exception (rest := []) _) ?_
  rw [cstr_of_nulFree (by simp [NulFree, List.mem_replicate])]
  simp
  omega

/-- **C57, negation (long names).** A view of 2^31 up to 2^32 - 1 bytes gets a negative precision: `%.*s` ignores the end of the
view and reads on to the next NUL, or past the end of the memory that the view lies in if there is none. -/
theorem C57_long_view_false {name rest : Bytes} (h : 2 ^ 31 ≤ name.length) (h' : name.length < 2 ^ 32) (hn : NulFree name) :
    (NulFree rest → format fNoFunction (viewArgs name.length (name ++ rest)) = .ub .oobRead) ∧
    (∀ a b, NulFree a → rest = a ++ 0 :: b → format fNoFunction (viewArgs name.length (name ++ rest)) =
      .ok (lit "No function '" ++ (name ++ a) ++ lit "' is registered")) := by
  have e : compile (fNoFunction.length + 1) fNoFunction [] =
      some [.text (lit "No function '"), .dir .precS, .text (lit "' is registered")] := by decide +kernel
  constructor
  · intro hr
    have : precText (slength name.length) (name ++ rest) = .ub .oobRead := by
      unfold precText strText
      rw [if_pos (slength_neg h h'), if_neg]
      simp only [List.mem_append]
      exact fun hx => hx.elim hn hr
    simp [format, e, output, convert, viewArgs, this]
  · rintro a b ha rfl
    have : precText (slength name.length) (name ++ (a ++ 0 :: b)) = .ok (name ++ a) := by
      unfold precText
      rw [if_pos (slength_neg h h'), ← List.append_assoc, strText_nul, cstr_of_nulFree]
      simp only [NulFree, List.mem_append]
      exact fun hx => hx.elim hn ha
    simp [format, e, output, convert, viewArgs, this]

/-- There are such names. -/
example (n : Nat) (h : 2 ^ 31 ≤ n) (h' : n < 2 ^ 32) : ∃ name : Bytes, 2 ^ 31 ≤ name.length ∧ name.length < 2 ^ 32 ∧ NulFree name :=
  ⟨List.replicate n 97, by simpa using h, by simpa using h', by simp [NulFree, List.mem_replicate]⟩

end Coil
