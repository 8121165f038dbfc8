import Verif.Spec.Enums
import Verif.Proofs.Conv

/-! # Lemmas on enumerations -/

namespace Coil
open Spec

/-! ## Ranges -/

theorem least_eq (pl : Platform) (t : IntType) : t.least pl = lo pl t := by
  obtain ⟨a, b, c, d⟩ := pl
  cases t <;> cases a <;> cases b <;> rfl

theorem greatest_eq (pl : Platform) (t : IntType) : t.greatest pl = hi pl t := by
  obtain ⟨a, b, c, d⟩ := pl
  cases t <;> cases a <;> cases b <;> rfl

theorem lo_nonpos (pl : Platform) (t : IntType) : lo pl t ≤ 0 ∧ 127 ≤ hi pl t := by
  obtain ⟨a, b, c, d⟩ := pl
  cases t <;> cases a <;> cases b <;> simp [lo, hi]

theorem nameOf_iff {d : EnumDecl} {n : Bytes} {x : Int} : d.nameOf x = some n ↔ Primary d n x := by
  unfold EnumDecl.nameOf Primary
  constructor
  · intro h
    simp only [Option.map_eq_some_iff] at h
    obtain ⟨⟨m, y⟩, h1, rfl⟩ := h
    rw [List.find?_eq_some_iff_append] at h1
    obtain ⟨h2, pre, post, h3, h4⟩ := h1
    have : y = x := by simpa using h2
    subst this
    exact ⟨pre, post, h3, fun c hc => by simpa using h4 c hc⟩
  · rintro ⟨pre, post, h1, h2⟩
    have : d.constants.find? (fun c => c.2 == x) = some (n, x) := by
      rw [List.find?_eq_some_iff_append]
      exact ⟨by simp, pre, post, h1, fun c hc => by simpa using h2 c hc⟩
    rw [this]
    rfl

theorem primary_unique {d : EnumDecl} {n m : Bytes} {x : Int} (h : Primary d n x) (h' : Primary d m x) : n = m := by
  have h1 := nameOf_iff.2 h
  rw [nameOf_iff.2 h'] at h1
  exact (Option.some.inj h1).symm

theorem primary_mem {d : EnumDecl} {n : Bytes} {x : Int} (h : Primary d n x) : (n, x) ∈ d.constants := by
  obtain ⟨pre, post, h, _⟩ := h
  rw [h]
  simp

theorem range_bounds (pl : Platform) (d : EnumDecl) (x : Int) :
    (d.rangeMin pl ≤ x ∧ x ≤ d.rangeMax pl) ↔ InRange pl d.underlying x ∧ -128 ≤ x ∧ x ≤ 128 := by
  unfold EnumDecl.rangeMin EnumDecl.rangeMax InRange
  rw [least_eq, greatest_eq]
  have := lo_nonpos pl d.underlying
  split <;> split <;> omega

theorem mem_entries {pl : Platform} {d : EnumDecl} {n : Bytes} {x : Int} :
    (n, x) ∈ d.entries pl ↔ Known pl d n x := by
  unfold EnumDecl.entries Known
  rw [← range_bounds pl d x, ← nameOf_iff]
  simp only [List.mem_filterMap, List.mem_range, Option.map_eq_some_iff, Prod.mk.injEq]
  constructor
  · rintro ⟨i, hi, m, hm, rfl, rfl⟩
    refine ⟨hm, by omega, by omega⟩
  · rintro ⟨h1, h2, h3⟩
    refine ⟨(x - d.rangeMin pl).toNat, by omega, n, ?_, rfl, by omega⟩
    rw [show d.rangeMin pl + ((x - d.rangeMin pl).toNat : Int) = x by omega]
    exact h1

theorem pairwise_filterMap_range {β : Type} {R : β → β → Prop} {f : Nat → Option β} (n : Nat)
    (h : ∀ i j a b, i < j → f i = some a → f j = some b → R a b) : ((List.range n).filterMap f).Pairwise R := by
  rw [List.pairwise_filterMap]
  exact List.pairwise_lt_range.imp fun hij a ha b hb => h _ _ _ _ hij ha hb

theorem entries_sorted (pl : Platform) (d : EnumDecl) : (d.entries pl).Pairwise (fun a b => a.2 < b.2) := by
  refine pairwise_filterMap_range _ fun i j a b hij ha hb => ?_
  simp only [Option.map_eq_some_iff] at ha hb
  obtain ⟨_, _, rfl⟩ := ha
  obtain ⟨_, _, rfl⟩ := hb
  simp only
  omega

theorem entries_known (pl : Platform) (d : EnumDecl) : KnownList pl d (d.entries pl) :=
  ⟨entries_sorted pl d, fun _ _ => mem_entries⟩

/-! ## Words -/

theorem toLowerU_iff (c d : Byte) : toLowerU c = toLowerU d ↔ Alike c d := by
  unfold toLowerU Alike SameLetter
  simp only [UInt8.le_iff_toNat_le, ← UInt8.toNat_inj]
  have h65 : UInt8.toNat 65 = 65 := rfl
  have h90 : UInt8.toNat 90 = 90 := rfl
  have h32 : UInt8.toNat 32 = 32 := rfl
  have hc := c.toNat_lt
  have hd := d.toNat_lt
  split <;> split <;> simp only [UInt8.toNat_add, h65, h90, h32] at * <;> omega

theorem cmpEqualLoop_iff : ∀ (a b : Bytes), a.length = b.length → (cmpEqualLoop a b = true ↔ SameWord a b)
  | [], [], _ => by simp [cmpEqualLoop, SameWord]; exact .nil
  | a :: as, b :: bs, h => by
    have ih := cmpEqualLoop_iff as bs (by simpa using h)
    simp only [cmpEqualLoop]
    by_cases hab : toLowerU a = toLowerU b
    · rw [if_neg (by simp [hab]), ih]
      exact ⟨fun h => .cons ((toLowerU_iff _ _).1 hab) h, fun h => by cases h; assumption⟩
    · rw [if_pos hab]
      refine ⟨fun h => (by simp at h), fun h => ?_⟩
      cases h with
      | cons h1 _ => exact absurd ((toLowerU_iff _ _).2 h1) hab
  | [], _ :: _, h => by simp at h
  | _ :: _, [], h => by simp at h

theorem cmpEqual_iff (a b : Bytes) : cmpEqual a b = true ↔ SameWord a b := by
  unfold cmpEqual
  by_cases h : a.length = b.length
  · rw [if_neg (by simpa using h)]
    exact cmpEqualLoop_iff a b h
  · rw [if_pos h]
    exact ⟨fun h => (by simp at h), fun h' => absurd (forall2_length h') h⟩

theorem sameWord_refl : ∀ a : Bytes, SameWord a a
  | [] => .nil
  | _ :: as => .cons (.inl (.inl rfl)) (sameWord_refl as)

theorem sameWord_symm {a b : Bytes} (h : SameWord a b) : SameWord b a := by
  induction h with
  | nil => exact .nil
  | cons h1 _ ih => exact .cons (h1.elim .inr .inl) ih

theorem sameWord_trans {a b c : Bytes} (h : SameWord a b) (h' : SameWord b c) : SameWord a c := by
  induction h generalizing c with
  | nil => exact h'
  | cons h1 _ ih =>
    cases h' with
    | cons h2 h3 =>
      refine .cons ?_ (ih h3)
      rw [← toLowerU_iff] at *
      exact h1.trans h2

/-! ## Names and values -/

theorem enumCast_some {s : Bytes} {x : Int} : ∀ {es : List (Bytes × Int)}, es.Pairwise (fun a b => a.2 < b.2) →
    (enumCast s es = some x ↔ ∃ n, (n, x) ∈ es ∧ SameWord s n ∧ ∀ m y, (m, y) ∈ es → SameWord s m → x ≤ y)
  | [], _ => by simp [enumCast]
  | (n, z) :: es, h => by
    obtain ⟨h1, h2⟩ := List.pairwise_cons.1 h
    simp only [enumCast]
    split
    · rename_i hc
      rw [cmpEqual_iff] at hc
      constructor
      · intro hx
        cases hx
        refine ⟨n, by simp, hc, fun m y hm _ => ?_⟩
        rcases List.mem_cons.1 hm with hm | hm
        · cases hm; omega
        · exact Int.le_of_lt (h1 _ hm)
      · rintro ⟨m, hm, _, hmin⟩
        have := hmin n z (by simp) hc
        rcases List.mem_cons.1 hm with hm | hm
        · cases hm; rfl
        · have := h1 _ hm
          simp only at this
          omega
    · rename_i hc
      rw [cmpEqual_iff] at hc
      rw [enumCast_some h2]
      constructor
      · rintro ⟨m, hm, hs, hmin⟩
        refine ⟨m, by simp [hm], hs, fun m' y hm' hs' => ?_⟩
        rcases List.mem_cons.1 hm' with hm' | hm'
        · cases hm'; exact absurd hs' hc
        · exact hmin _ _ hm' hs'
      · rintro ⟨m, hm, hs, hmin⟩
        rcases List.mem_cons.1 hm with hm | hm
        · cases hm; exact absurd hs hc
        · exact ⟨m, hm, hs, fun m' y hm' hs' => hmin m' y (by simp [hm']) hs'⟩

theorem enumCast_none {s : Bytes} : ∀ {es : List (Bytes × Int)},
    (enumCast s es = none ↔ ∀ n x, (n, x) ∈ es → ¬ SameWord s n)
  | [] => by simp [enumCast]
  | (n, z) :: es => by
    simp only [enumCast]
    split
    · rename_i hc
      rw [cmpEqual_iff] at hc
      simp only [reduceCtorEq, false_iff]
      exact fun h => h n z (by simp) hc
    · rename_i hc
      rw [cmpEqual_iff] at hc
      rw [enumCast_none]
      constructor
      · intro h m x hm
        rcases List.mem_cons.1 hm with hm | hm
        · cases hm; exact hc
        · exact h _ _ hm
      · exact fun h m x hm => h m x (by simp [hm])

theorem enumName_some {es : List (Bytes × Int)} (h : es.Pairwise (fun a b => a.2 < b.2)) {n : Bytes} {x : Int}
    (hm : (n, x) ∈ es) : enumName es x = n := by
  unfold enumName
  have : es.find? (fun c => c.2 == x) = some (n, x) := by
    rw [List.find?_eq_some_iff_append]
    obtain ⟨pre, post, rfl⟩ := List.append_of_mem hm
    refine ⟨by simp, pre, post, rfl, fun c hc => ?_⟩
    have := (List.pairwise_append.1 h).2.2 c hc (n, x) (by simp)
    simp only at this
    have h' : c.2 ≠ x := by omega
    simpa using h'
  rw [this]
  rfl

theorem enumName_none {es : List (Bytes × Int)} {x : Int} (hm : ∀ n, (n, x) ∉ es) : enumName es x = [] := by
  unfold enumName
  have : es.find? (fun c => c.2 == x) = none := by
    rw [List.find?_eq_none]
    rintro ⟨n, y⟩ hc
    simp only [beq_iff_eq]
    rintro rfl
    exact hm n hc
  rw [this]
  rfl

/-! ## Texts -/

theorem intercalate_cons_cons' {sep x y : Bytes} {l : List Bytes} :
    sep.intercalate (x :: y :: l) = x ++ (sep ++ sep.intercalate (y :: l)) := by
  simp [List.intercalate, List.intersperse]

theorem flattenLoop_eq (dec sep : Bytes) : ∀ (l : List Bytes) (cur ss : Bytes), l ≠ [] →
    flattenLoop dec sep l cur ss = ss ++ (cur ++ sep.intercalate (l.map fun n => dec ++ n ++ dec))
  | [], _, _, h => absurd rfl h
  | [x], cur, ss, _ => by simp [flattenLoop, List.intercalate]
  | x :: y :: l, cur, ss, _ => by
    rw [flattenLoop, flattenLoop_eq dec sep (y :: l) _ _ (by simp)]
    simp only [List.map_cons, intercalate_cons_cons', List.append_assoc]

theorem flatten_eq (l : List Bytes) (dec sep : Bytes) :
    flatten l dec sep = sep.intercalate (l.map fun n => dec ++ n ++ dec) := by
  unfold flatten
  cases l with
  | nil => rfl
  | cons x l => rw [flattenLoop_eq _ _ _ _ _ (by simp)]; simp

theorem nulFree_intercalate {sep : Bytes} (hs : NulFree sep) : ∀ {l : List Bytes}, (∀ n ∈ l, NulFree n) →
    NulFree (sep.intercalate l)
  | [], _ => by simp [NulFree, List.intercalate]
  | [x], h => by simpa [NulFree, List.intercalate] using h x (by simp)
  | x :: y :: l, h => by
    rw [intercalate_cons_cons']
    have h1 := h x (by simp)
    have h2 := nulFree_intercalate hs (l := y :: l) (fun n hn => h n (List.mem_cons_of_mem _ hn))
    unfold NulFree at *
    simp only [List.mem_append, not_or]
    exact ⟨h1, hs, h2⟩

theorem identChar_ne_zero {c : Byte} (h : IdentChar c) : c ≠ 0 := by
  rintro rfl
  have h0 : UInt8.toNat 0 = 0 := rfl
  unfold IdentChar at h
  rw [h0] at h
  omega

theorem identifier_nulFree {s : Bytes} (h : Identifier s) : NulFree s :=
  fun hc => identChar_ne_zero (h.1 0 hc) rfl

/-! ## Numbers -/

/-- Identifiers are not numbers. -/
theorem identifier_not_numeral {s : Bytes} (h : Identifier s) (neg : Bool) (mag : Nat) : ¬ SignedNumeral s neg mag := by
  rintro ⟨ws, sg, ds, rfl, hw, hsg, hd⟩
  obtain ⟨hc, c, t, he, hnd⟩ := h
  have hic := hc c (by rw [he]; simp)
  cases ws with
  | cons w ws =>
    simp only [List.cons_append, List.cons.injEq] at he
    have := hw w (by simp)
    rw [he.1] at this
    unfold CSpace at this
    unfold IdentChar at hic
    rcases this with rfl | rfl | rfl | rfl | rfl | rfl <;> revert hic <;> decide
  | nil =>
    simp only [List.nil_append] at he
    cases hsg with
    | plus =>
      simp only [List.cons_append, List.cons.injEq] at he
      rw [← he.1] at hic
      exact absurd hic (by unfold IdentChar; decide)
    | minus =>
      simp only [List.cons_append, List.cons.injEq] at he
      rw [← he.1] at hic
      exact absurd hic (by unfold IdentChar; decide)
    | none =>
      simp only [List.nil_append] at he
      have : ∀ {ds : Bytes} {m : Nat}, Decimal ds m → ∃ c' t', ds = c' :: t' ∧ (48 ≤ c'.toNat ∧ c'.toNat ≤ 57) := by
        intro ds m hd
        induction hd with
        | one hd => cases hd with | mk h1 h2 => exact ⟨_, _, rfl, by omega⟩
        | snoc _ _ ih =>
          obtain ⟨c', t', rfl, h⟩ := ih
          exact ⟨c', _, rfl, h⟩
      obtain ⟨c', t', rfl, h⟩ := this hd
      simp only [List.cons.injEq] at he
      rw [he.1] at h
      exact hnd h

theorem asNumber_iff {pl : Platform} {t : IntType} {s : Bytes} {z : Int} :
    AsNumber pl t s z ↔ t.fromString pl s = some z := by
  unfold AsNumber intConv
  rw [arithConv_single]
  cases t.fromString pl s <;> simp

theorem identifier_not_number {pl : Platform} {t : IntType} {s : Bytes} (h : Identifier s) (z : Int) :
    ¬ AsNumber pl t s z := by
  rw [asNumber_iff]
  by_cases ht : IsSignedParse t
  · rw [signed_fromString_iff ht]
    rintro ⟨⟨neg, mag, h', _⟩, _⟩
    exact identifier_not_numeral h _ _ h'
  · rw [unsigned_fromString_iff ht]
    rintro ⟨_, _, neg, mag, h', _⟩
    exact identifier_not_numeral h _ _ h'

theorem asNumber_unique {pl : Platform} {t : IntType} {s : Bytes} {z z' : Int} (h : AsNumber pl t s z)
    (h' : AsNumber pl t s z') : z = z' := by
  rw [asNumber_iff] at *
  rw [h] at h'
  exact Option.some.inj h'

theorem asNumber_inRange {pl : Platform} {t : IntType} {s : Bytes} {z : Int} (h : AsNumber pl t s z) : InRange pl t z := by
  rw [asNumber_iff] at h
  by_cases ht : IsSignedParse t
  · exact ((signed_fromString_iff ht).1 h).2
  · exact ((unsigned_fromString_iff ht).1 h).2.1

/-! ## The values of an enumeration -/

theorem foldl_max_le {l : List Nat} {a n : Nat} : l.foldl max a ≤ n ↔ a ≤ n ∧ ∀ x ∈ l, x ≤ n := by
  induction l generalizing a with
  | nil => simp
  | cons x l ih =>
    rw [List.foldl_cons, ih]
    simp only [List.mem_cons, forall_eq_or_imp, Nat.max_le, and_assoc]

theorem mag_le (d : EnumDecl) (m : Nat) :
    d.mag < 2 ^ m ↔ ∀ c ∈ d.constants, -(2 ^ m : Nat) ≤ c.2 ∧ c.2 < (2 ^ m : Nat) := by
  have hp : 0 < 2 ^ m := Nat.two_pow_pos m
  unfold EnumDecl.mag
  rw [show ∀ a : Nat, (a < 2 ^ m) = (a ≤ 2 ^ m - 1) from fun a => propext (by omega), foldl_max_le]
  simp only [Nat.zero_le, true_and, List.mem_map, forall_exists_index, and_imp, forall_apply_eq_imp_iff₂]
  constructor
  · intro h c hc
    have := h c hc
    split at this <;> omega
  · intro h c hc
    have := h c hc
    split <;> omega

theorem cast_iff (d : EnumDecl) (x : Int) : (d.fixed = true ∨ (d.bmin ≤ x ∧ x ≤ d.bmax)) ↔ ValueOf d x := by
  unfold ValueOf
  by_cases hf : d.fixed = true
  · simp [hf]
  simp only [hf, Bool.false_eq_true, false_or]
  -- the least number of bits
  obtain ⟨m, hm1, hm2, hb⟩ : ∃ m : Nat, d.mag < 2 ^ m ∧ (∀ k, d.mag < 2 ^ k → m ≤ k) ∧ d.bmax = ((2 ^ m : Nat) : Int) - 1 := by
    unfold EnumDecl.bmax
    by_cases h0 : d.mag = 0
    · rw [if_pos h0]
      exact ⟨0, by simp [h0], fun k _ => Nat.zero_le k, rfl⟩
    · rw [if_neg h0]
      refine ⟨Nat.log2 d.mag + 1, Nat.lt_log2_self, fun k hk => ?_, rfl⟩
      have := (Nat.log2_lt h0).2 hk
      omega
  have hneg : (d.constants.any (fun c => decide (c.2 < 0)) = true) ↔ ∃ c ∈ d.constants, c.2 < 0 := by
    simp
  unfold EnumDecl.bmin
  rw [hb]
  constructor
  · rintro ⟨h1, h2⟩ k hk
    have hle : 2 ^ m ≤ 2 ^ k := Nat.pow_le_pow_right (by omega) (hm2 k ((mag_le d k).2 hk))
    refine ⟨by omega, ?_⟩
    split at h1
    · rename_i hn
      by_cases h0 : 0 ≤ x
      · exact .inr h0
      · exact .inl ⟨hneg.1 hn, by omega⟩
    · exact .inr h1
  · intro h
    obtain ⟨h1, h2⟩ := h m ((mag_le d m).1 hm1)
    refine ⟨?_, by omega⟩
    rcases h2 with ⟨hn, h2⟩ | h2
    · rw [if_pos (hneg.2 hn)]
      omega
    · split <;> omega

theorem cast_ok {d : EnumDecl} {x y : Int} : d.cast x = .ok y ↔ x = y ∧ ValueOf d x := by
  unfold EnumDecl.cast
  rw [← cast_iff]
  split <;> rename_i h <;> simp [h]

theorem cast_ub {d : EnumDecl} {x : Int} {w : UB} : d.cast x = .ub w ↔ w = .badEnum ∧ ¬ ValueOf d x := by
  unfold EnumDecl.cast
  rw [← cast_iff]
  split <;> rename_i h
  · simp only [reduceCtorEq, false_iff, not_and, Decidable.not_not]
    exact fun _ => h
  · simp only [Res.ub.injEq]
    exact ⟨fun e => ⟨e.symm, h⟩, fun e => e.1.symm⟩

/-- The constants are values. -/
theorem constant_valueOf {d : EnumDecl} {c : Bytes × Int} (h : c ∈ d.constants) : ValueOf d c.2 := by
  right
  intro m hm
  have := hm c h
  refine ⟨this.2, ?_⟩
  by_cases h0 : 0 ≤ c.2
  · exact .inr h0
  · exact .inl ⟨⟨c, h, by omega⟩, this.1⟩

/-! ## The serializer -/

theorem enumConv_single (pl : Platform) (d : EnumDecl) (s : Bytes) :
    (enumConv pl d).fromString ⟨[s]⟩ =
      match d.underlying.fromString pl s with
      | some z => (match d.cast z with | .ok x => .ok (.ok x) | .ub w => .ub w | .diverge => .diverge)
      | none => .ok (enumByName pl d ⟨[s]⟩ s) := by
  simp only [enumConv, intConv, arithConv_single]
  cases d.underlying.fromString pl s with
  | none => rfl
  | some z =>
    simp only [Res.bind_ok, enumByNumber]
    cases d.cast z <;> rfl

theorem enumConv_other (pl : Platform) (d : EnumDecl) {v : Value} (h : v.subvalues.length ≠ 1) :
    (enumConv pl d).fromString v = .ok (.error (mismatchError d.typeName v 1)) := by
  obtain ⟨l⟩ := v
  match l with
  | [] => rfl
  | [_] => simp at h
  | _ :: _ :: _ => rfl

end Coil
