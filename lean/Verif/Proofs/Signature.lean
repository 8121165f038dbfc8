import Verif.Spec.Signature

/-!
# Lemmas about signatures
-/

namespace Coil
namespace Sig
open Spec.Sig

theorem decay_adjust (p : CTy) : decay (adjust p) = object (valueType p) := by cases p <;> rfl

theorem returnType_eq (r : CTy) : returnType r = object (valueType r) := by cases r <;> rfl

theorem shownResult_eq (r : CTy) : shownResult r = object (shown (valueType r)) := by
  unfold shownResult
  rw [returnType_eq]
  cases valueType r <;> rfl

theorem isVoid_iff (r : CTy) : isVoid (returnType r) = true ↔ valueType r = .void := by
  rw [returnType_eq]
  simp [isVoid, removeCv, object]

theorem usable_iff (p : CTy) : usable (adjust p) = true ↔ TakesValue p := by
  constructor
  · cases p with
    | obj cv t => intro _; exact .byValue
    | rref cv t => intro _; exact .moved
    | lref cv t =>
      intro h
      obtain ⟨c, v⟩ := cv
      cases c <;> cases v <;> simp [usable, adjust, passes, plain, movedCv, removeReference] at h
      exact .constRef
  · intro h
    cases h with
    | byValue => rfl
    | moved => rename_i cv t; obtain ⟨c, v⟩ := cv; cases c <;> cases v <;> rfl
    | constRef => rfl

theorem readNames_iff {k : Known} {ts : List Ty} {ns : List Bytes} :
    readNames k (ts.map object) = some ns ↔ Readable k ts ns := by
  induction ts generalizing ns with
  | nil =>
    simp only [List.map_nil, readNames, Option.some.injEq]
    constructor
    · rintro rfl; exact .nil
    · intro h; cases h; rfl
  | cons t ts ih =>
    simp only [List.map_cons, readNames]
    constructor
    · intro h
      split at h
      · rename_i n ns' h1 h2 h3
        cases h
        exact .cons h1 h2 (ih.1 h3)
      · cases h
    · intro h
      cases h with
      | cons h1 h2 h3 => simp only [h1, h2, ih.2 h3]

theorem argsTraits_context {p : CTy} {ps : List CTy} (h : valueType p = .context) :
    argsTraits ((p :: ps).map adjust) = (1, (ps.map valueType).map object) := by
  have h1 : (List.map adjust (p :: ps)).map decay = object .context :: (ps.map valueType).map object := by
    simp [decay_adjust, Function.comp_def, h]
  unfold argsTraits
  rw [h1]
  rfl

theorem argsTraits_all {ps : List CTy} (h : ¬ TakesContext ps) :
    argsTraits (ps.map adjust) = (0, (ps.map valueType).map object) := by
  have h1 : (ps.map adjust).map decay = (ps.map valueType).map object := by
    simp [decay_adjust, Function.comp_def]
  unfold argsTraits
  rw [h1]
  cases ps with
  | nil => rfl
  | cons p ps =>
    simp only [List.map_cons]
    split
    · rename_i heq
      simp only [List.cons.injEq, object, CTy.obj.injEq, true_and] at heq
      exact absurd heq.1 h
    · rfl

theorem userTypes_iff {ps : List CTy} {own : Nat} {user : List CTy} (h : argsTraits (ps.map adjust) = (own, user)) :
    (∃ ts, UserTypes ps ts ∧ user = ts.map object) ∧ ((own == 1) = true ↔ TakesContext ps) ∧
      ∀ ts, UserTypes ps ts → user = ts.map object := by
  by_cases hc : TakesContext ps
  · cases ps with
    | nil => exact hc.elim
    | cons p ps =>
      rw [argsTraits_context hc] at h
      cases h
      refine ⟨⟨_, .context hc, rfl⟩, by simp [hc], fun ts hts => ?_⟩
      cases hts with
      | context => rfl
      | all h => exact absurd hc h
  · rw [argsTraits_all hc] at h
    cases h
    refine ⟨⟨_, .all hc, rfl⟩, by simp [hc], fun ts hts => ?_⟩
    cases hts with
    | context h => exact absurd h hc
    | all => rfl

theorem wrap_iff {k : Known} {f : Fn} (hf : f.ellipsis = false) {c : Bool} {sig : Signature} :
    wrap k ⟨c, f.result, f.params.map adjust⟩ = some sig ↔ HasSignature k f sig := by
  unfold wrap
  cases ha : argsTraits (f.params.map adjust) with
  | mk own user =>
    obtain ⟨⟨ts, h1, rfl⟩, h2, h3⟩ := userTypes_iff ha
    simp only
    have hall : (f.params.map adjust).all usable = true ↔ ∀ p ∈ f.params, TakesValue p := by
      simp only [List.all_map, List.all_eq_true, Function.comp_apply, usable_iff]
    have hvoid : (isVoid (returnType f.result) || k.prints (returnType f.result)) = true ↔
        valueType f.result = .void ∨ k.prints (object (valueType f.result)) = true := by
      rw [Bool.or_eq_true, isVoid_iff, returnType_eq]
    constructor
    · intro h
      split at h
      · rename_i ns r e1 e2 e3 e4
        cases h
        refine ⟨hf, hall.1 e1, ⟨ts, h1, readNames_iff.1 e2⟩, ?_, hvoid.1 e4, h2, ?_⟩
        · rw [← shownResult_eq]; exact e3
        · simp only [Bool.not_eq_true', ← Bool.not_eq_true, isVoid_iff, ne_eq]
      · cases h
    · rintro ⟨_, e1, ⟨ts', h4, e2⟩, e3, e4, e5, e6⟩
      rw [h3 ts' h4, hall.2 e1, readNames_iff.2 e2, shownResult_eq, e3, hvoid.2 e4]
      obtain ⟨ps, r, cx, pr⟩ := sig
      simp only [Option.some.injEq, Signature.mk.injEq, true_and]
      refine ⟨?_, ?_⟩
      · rw [Bool.eq_iff_iff, h2]; exact e5.symm
      · rw [Bool.eq_iff_iff, Bool.not_eq_true', ← Bool.not_eq_true, isVoid_iff]; exact e6.symm

theorem memberTraits_eq (q : Quals) (f : Fn) :
    memberTraits q f = if f.ellipsis then none else some ⟨q.cv.const, f.result, f.params.map adjust⟩ := by
  unfold memberTraits
  have : memberTable.lookup q = some q.cv.const := by
    obtain ⟨⟨c, v⟩, r, n⟩ := q
    cases c <;> cases v <;> cases r <;> cases n <;> rfl
  rw [this]

theorem callableOn_iff (cv : Cv) (q : Quals) : callableOn cv q = true ↔ Calls cv q := by
  constructor
  · intro h
    simp only [callableOn, Bool.and_eq_true, bne_iff_ne, ne_eq, Bool.or_eq_true, Bool.not_eq_true'] at h
    obtain ⟨⟨h1, h2⟩, h3⟩ := h
    exact ⟨h1, fun h => by simpa [h] using h2, fun h => by simpa [h] using h3⟩
  · rintro ⟨h1, h2, h3⟩
    simp only [callableOn, Bool.and_eq_true, bne_iff_ne, ne_eq, Bool.or_eq_true, Bool.not_eq_true']
    refine ⟨⟨h1, ?_⟩, ?_⟩
    · cases h : cv.const
      · exact .inl rfl
      · exact .inr (h2 h)
    · cases h : cv.volatile
      · exact .inl rfl
      · exact .inr (h3 h)

theorem readable_unique {k : Known} {ts : List Ty} {a b : List Bytes} (ha : Readable k ts a) (hb : Readable k ts b) :
    a = b := by
  have := readNames_iff.2 ha
  rw [readNames_iff.2 hb] at this
  cases this
  rfl

theorem readable_length {k : Known} {ts : List Ty} {a : List Bytes} (ha : Readable k ts a) : a.length = ts.length := by
  induction ha with
  | nil => rfl
  | cons _ _ _ ih => simp [ih]

end Sig
end Coil
