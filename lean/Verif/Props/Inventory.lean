import Verif.Proofs.OneForm
import Verif.Props.Kept
import Verif.Props.Access
import Verif.Props.Lexer
import Verif.Spec.Inventory

/-!
# The inventory (C104)
-/

namespace Coil
open Spec Vw

section Asked

variable {S W C D T : Type} {ops : RegOps S C D} {ne : Nested S W C D} {self : Inst C D} {l : List Named} {past : List CtxEvent} {s : Sys S W C D}

theorem errorsOf_errors (es : List Bytes) : errorsOf (es.map CtxEvent.error) = es := by
  induction es with
  | nil => rfl
  | cons e es ih => simp [errorsOf, ih]

theorem outputOf_errors (es : List Bytes) : outputOf (es.map CtxEvent.error) = [] := by
  induction es with
  | nil => rfl
  | cons e es ih =>
    simp only [outputOf, List.map_cons, List.flatten_cons] at ih ⊢
    rw [ih]
    rfl

theorem namedAfter_errors (l : List Named) (es : List Bytes) : namedAfter l (es.map CtxEvent.error) = l := by
  induction es with
  | nil => rfl
  | cons e es ih => exact ih

/-- Asking for a named argument. -/
theorem asked_runs {conv : Conv T} {key : Bytes} {required : Bool} {dflt : Option T} (hk : NulFree key) {es : List Bytes} {x : Option T}
    {before : List Bytes} (h : Asked conv key required dflt l es x) :
    Runs ops ne self l (before.map .error) (namedGetOrReportT conv key required dflt) s (es.map .error) (.ret x) s := by
  rw [← namedAfter_errors l before] at h
  cases h with
  | absent h hr => subst hr; exact (C38_default h dflt).2 ⟨rfl, rfl, rfl⟩
  | missing h hr => subst hr; exact (C38_required h hk dflt).2 ⟨rfl, rfl, rfl⟩
  | good h hc => exact (C38_present h hc required dflt).2 ⟨rfl, rfl, rfl⟩
  | bad h hc => exact (C38_mismatch h hc required dflt).2 ⟨rfl, rfl, rfl⟩

/-- Asking for a named argument, and going on. -/
theorem asked_bind {R : Type} {conv : Conv T} {key : Bytes} {required : Bool} {dflt : Option T} (hk : NulFree key) {es before : List Bytes} {x : Option T}
    (h : Asked conv key required dflt l es x) {p : Option T → Prog W C D R} {es' : List CtxEvent} {e : End R} {s' : Sys S W C D}
    (hp : Runs ops ne self l ((before ++ es).map .error) (p x) s es' e s') :
    Runs ops ne self l (before.map .error) ((namedGetOrReportT conv key required dflt).bind p) s (es.map .error ++ es') e s' := by
  rw [List.map_append] at hp
  exact Runs.bind_ret (asked_runs hk h) hp

/-- There is always one outcome, if the conversion is defined. -/
theorem asked_total (conv : Conv T) (key : Bytes) (required : Bool) (dflt : Option T) (named : List Named)
    (hc : ∀ v, ∃ r, conv.fromString v = .ok r) : ∃ es x, Asked conv key required dflt named es x := by
  rcases C37_dichotomy key named with h | ⟨v, h⟩
  · cases required
    · exact ⟨_, _, .absent h rfl⟩
    · exact ⟨_, _, .missing h rfl⟩
  · obtain ⟨r, hr⟩ := hc v
    cases r with
    | ok x => exact ⟨_, _, .good h hr⟩
    | error m => exact ⟨_, _, .bad h hr⟩

end Asked

/-! ## Helpers -/

theorem contains_iff {t p : Bytes} : contains t p = true ↔ ∃ a b, t = a ++ p ++ b := by
  induction t with
  | nil =>
    simp only [contains, List.isEmpty_iff]
    constructor
    · rintro rfl
      exact ⟨[], [], rfl⟩
    · rintro ⟨a, b, h⟩
      simp at h
      exact h.2.1
  | cons c t ih =>
    simp only [contains, Bool.or_eq_true, List.isPrefixOf_iff_prefix, ih]
    constructor
    · rintro (⟨b, h⟩ | ⟨a, b, h⟩)
      · exact ⟨[], b, by simpa using h.symm⟩
      · exact ⟨c :: a, b, by simp [h]⟩
    · rintro ⟨a, b, h⟩
      cases a with
      | nil => exact .inl ⟨b, by simpa using h.symm⟩
      | cons x a =>
        simp at h
        exact .inr ⟨a, b, by simp [h.2]⟩

theorem filter_iff {name : Option Bytes} {minAmount source type : Option Int} {i : Item Bytes} :
    (Filter.nameOk ⟨name, minAmount, source, type⟩ i.name && Filter.restOk ⟨name, minAmount, source, type⟩ i) = true ↔
      Wanted name minAmount source type i := by
  simp only [Bool.and_eq_true, Filter.nameOk, Filter.restOk]
  constructor
  · rintro ⟨h1, ⟨h2, h3⟩, h4⟩
    refine ⟨?_, ?_, ?_, ?_⟩
    · rintro n rfl
      exact contains_iff.1 h1
    · rintro n rfl
      simpa using h2
    · rintro n rfl
      simpa using h3
    · rintro n rfl
      simpa using h4
  · rintro ⟨h1, h2, h3, h4⟩
    refine ⟨?_, ⟨?_, ?_⟩, ?_⟩
    · cases name with
      | none => rfl
      | some n => exact contains_iff.2 (h1 n rfl)
    · cases minAmount with
      | none => rfl
      | some n => simpa using h2 n rfl
    · cases source with
      | none => rfl
      | some n => simpa using h3 n rfl
    · cases type with
      | none => rfl
      | some n => simpa using h4 n rfl

theorem source_entries (pl : Platform) : sourceDecl.entries pl = [(lit "None", 0), (lit "Loot", 1), (lit "Reward", 2), (lit "Debug", 3)] := by
  obtain ⟨a, b, c, d⟩ := pl
  cases a <;> cases b <;> cases c <;> cases d <;> decide +kernel

theorem type_entries (pl : Platform) : typeDecl.entries pl = [(lit "None", 0), (lit "Key", 1), (lit "Weapon", 2), (lit "Currency", 3)] := by
  obtain ⟨a, b, c, d⟩ := pl
  cases a <;> cases b <;> cases c <;> cases d <;> decide +kernel

theorem four_names {a b c d : Bytes} {z : Int} (h0 : 0 ≤ z) (h4 : z < 4) :
    enumName [(a, 0), (b, 1), (c, 2), (d, 3)] z = [a, b, c, d].getD z.toNat [] := by
  have : z = 0 ∨ z = 1 ∨ z = 2 ∨ z = 3 := by omega
  rcases this with rfl | rfl | rfl | rfl <;> rfl

theorem itemLine_eq {pl : Platform} {i : Item Bytes} (h : Item.Proper i) : itemLine pl i i.name ++ [10] = lineOf i := by
  obtain ⟨h1, h2, h3, h4⟩ := h
  rw [itemLine, source_entries, type_entries, four_names h1 h2, four_names h3 h4]
  rfl

variable {S : Type} {P : InvCode → FunctorDef (List (Item Bytes)) InvCode Unit} {ops : RegOps S InvCode Unit} {catching : Bool} {fuel depth : Nat}
  {s : Sys S (List (Item Bytes)) InvCode Unit} {req : Request} {name : Bytes} {f : Inst InvCode Unit} {named : List Named} {pl : Platform} {sz : IntType}

theorem listLoopText_runs {ne : Nested S (List (Item Bytes)) InvCode Unit} {n : Option Bytes} {a so ty : Option Int}
    {s : Sys S (List (Item Bytes)) InvCode Unit} : ∀ (items : List (Item Bytes)), (∀ i ∈ items, Item.Proper i) → ∀ past,
    ∃ ev shown, Runs ops ne f named past (listLoopText pl ⟨n, a, so, ty⟩ items) s ev (.ret ()) s ∧ errorsOf ev = [] ∧
      Chosen (Wanted n a so ty) items shown ∧ outputOf ev = (shown.map lineOf).flatten := by
  intro items
  induction items with
  | nil => exact fun _ past => ⟨[], [], .ret, rfl, .nil, rfl⟩
  | cons i items ih =>
    intro hp past
    simp only [listLoopText]
    split
    case isTrue h =>
      obtain ⟨ev, shown, h1, h2, h3, h4⟩ := ih (fun i hi => hp i (List.mem_cons_of_mem _ hi)) (past ++ [.logline (itemLine pl i i.name)])
      refine ⟨_, i :: shown, .logline h1, h2, .take (filter_iff.1 h) h3, ?_⟩
      rw [List.map_cons, List.flatten_cons, ← h4, ← itemLine_eq (pl := pl) (hp i List.mem_cons_self)]
      rfl
    case isFalse h =>
      obtain ⟨ev, shown, h1, h2, h3, h4⟩ := ih (fun i hi => hp i (List.mem_cons_of_mem _ hi)) past
      exact ⟨ev, shown, h1, h2, .skip (fun hw => h (filter_iff.2 hw)) h3, h4⟩

/-! ## C104 -/

/-- **C104.** `inventory.list` prints the items that are asked for, in their order, or reports what is wrong with the named arguments; the items
stay as they are. -/
theorem C104_list (h : OneForm P ops s name (inventoryText pl sz .list) f) (hm : Means s.lexer req ⟨name, [], named⟩)
    (hp : ∀ i ∈ s.user, Item.Proper i) {e1 e2 e3 e4 : List Bytes} {n : Option Bytes} {a so ty : Option Int}
    (h1 : Asked stringConv (lit "name") false none named e1 n) (h2 : Asked (intConv pl sz) (lit "min_amount") false none named e2 a)
    (h3 : Asked (enumConv pl sourceDecl) (lit "source") false none named e3 so)
    (h4 : Asked (enumConv pl typeDecl) (lit "type") false none named e4 ty) :
    ∃ r shown, (nested P ops catching (fuel + 1) depth).exec s req = .ok ({ s with calls := s.calls ++ [(depth, f.id)] }, .ok r) ∧
      r.errors = e1 ++ e2 ++ e3 ++ e4 ∧ r.returnValue = none ∧ Chosen (Wanted n a so ty) s.user shown ∧
      r.output = if r.errors = [] then tableHead ++ (shown.map lineOf).flatten else [] := by
  have kf : ∀ k, k ∈ [lit "name", lit "min_amount", lit "source", lit "type"] → NulFree k := by unfold NulFree; decide
  obtain ⟨ev, shown, r1, r2, r3, r4⟩ := listLoopText_runs (ops := ops) (f := f) (named := named) (pl := pl) (n := n) (a := a) (so := so) (ty := ty)
    (s := { s with calls := s.calls ++ [(depth, f.id)] }) (ne := nested P ops catching fuel (depth + 1)) s.user hp
    ((([] ++ e1 ++ e2 ++ e3 ++ e4).map CtxEvent.error ++ [.logline (lit "ID\tName\tAmount\tSource\tType")]) ++
      [.logline (lit "--\t----\t------\t------\t----")])
  have hend : Runs ops (nested P ops catching fuel (depth + 1)) f named (([] ++ e1 ++ e2 ++ e3 ++ e4).map .error)
      (.hasErrors fun b =>
        if b then .ret ()
        else .logline (lit "ID\tName\tAmount\tSource\tType") <| .logline (lit "--\t----\t------\t------\t----") <|
          .get fun items => listLoopText pl ⟨n, a, so, ty⟩ items)
      { s with calls := s.calls ++ [(depth, f.id)] }
      (if e1 ++ e2 ++ e3 ++ e4 = [] then .logline (lit "ID\tName\tAmount\tSource\tType") :: .logline (lit "--\t----\t------\t------\t----") :: ev
        else []) (.ret ()) { s with calls := s.calls ++ [(depth, f.id)] } := by
    refine .hasErrors ?_
    rw [errorsOf_errors, List.nil_append]
    by_cases he : e1 ++ e2 ++ e3 ++ e4 = []
    · rw [if_pos he, if_neg (by simpa using he)]
      exact .logline (.logline (.get (by simpa using r1)))
    · rw [if_neg he, if_pos (decide_eq_true he)]
      exact .ret
  have hr : Runs ops (nested P ops catching fuel (depth + 1)) f named [] ((inventoryText pl sz .list).body ())
      { s with calls := s.calls ++ [(depth, f.id)] }
      (e1.map .error ++ (e2.map .error ++ (e3.map .error ++ (e4.map .error ++ if e1 ++ e2 ++ e3 ++ e4 = [] then
        .logline (lit "ID\tName\tAmount\tSource\tType") :: .logline (lit "--\t----\t------\t------\t----") :: ev else [])))) (.ret ()) { s with calls := s.calls ++ [(depth, f.id)] } := by
    refine asked_bind (before := []) (kf _ (by simp)) h1 ?_
    refine asked_bind (kf _ (by simp)) h2 ?_
    refine asked_bind (kf _ (by simp)) h3 ?_
    exact asked_bind (kf _ (by simp)) h4 hend
  refine ⟨_, shown, h.returns hm (xs := ()) trivial hr, ?_, ?_, r3, ?_⟩
  all_goals simp only [errorsOf_append, outputOf_append, errorsOf_errors, outputOf_errors]
  · split
    · simp [errorsOf, r2]
    · simp [errorsOf]
  · exact ite_self _
  · by_cases he : e1 ++ e2 ++ e3 ++ e4 = []
    · rw [if_pos he, if_pos]
      · simp only [List.nil_append, ← r4]
        have : tableHead = lit "ID\tName\tAmount\tSource\tType" ++ [10] ++ (lit "--\t----\t------\t------\t----" ++ [10]) := by decide +kernel
        rw [this]
        simp [outputOf, CtxEvent.text]
        rfl
      · simp [errorsOf, r2]
        simpa using he
    · rw [if_neg he, if_neg]
      · rfl
      · simp [errorsOf]
        simpa using he

/-- **C104.** `inventory.add` appends an item, or reports what is wrong with the named arguments and appends nothing. -/
theorem C104_add (h : OneForm P ops s name (inventoryText pl sz .add) f) {i n : Bytes} (hm : Means s.lexer req ⟨name, [⟨[i]⟩, ⟨[n]⟩], named⟩)
    {z : Int} (hz : (intConv pl sz).fromString ⟨[i]⟩ = .ok (.ok z)) {e1 e2 : List Bytes} {a ty : Option Int}
    (h1 : Asked (intConv pl sz) (lit "amount") false (some 1) named e1 a)
    (h2 : Asked (enumConv pl typeDecl) (lit "type") false (some 2) named e2 ty) :
    ∃ out items, (nested P ops catching (fuel + 1) depth).exec s req =
        .ok ({ s with calls := s.calls ++ [(depth, f.id)], user := items }, out) ∧
      answerOf out = some ⟨e1 ++ e2, none⟩ ∧
      (e1 ++ e2 ≠ [] → items = s.user) ∧
      (e1 ++ e2 = [] → ∃ x y, a = some x ∧ ty = some y ∧ items = s.user ++ [⟨z, n, x, 3, y⟩]) := by
  have kf : ∀ k, k ∈ [lit "amount", lit "type"] → NulFree k := by unfold NulFree; decide
  have ha : e1 = [] ∧ (∃ x, a = some x) ∨ e1 ≠ [] ∧ a = none := by cases h1 <;> simp
  have ht : e2 = [] ∧ (∃ x, ty = some x) ∨ e2 ≠ [] ∧ ty = none := by cases h2 <;> simp
  have hc : ConvertTo (inventoryText pl sz .add).params [⟨[i]⟩, ⟨[n]⟩] (z, n, ()) := ⟨hz, rfl, trivial⟩
  have done : ∀ items, Runs ops (nested P ops catching fuel (depth + 1)) f named (([] ++ e1 ++ e2).map .error)
      (match a, ty with
        | some x, some t => .get fun items => .set (items ++ [⟨z, n, x, 3, t⟩]) (.ret ())
        | _, _ => .ret ())
      { s with calls := s.calls ++ [(depth, f.id)] } [] (.ret ()) { s with calls := s.calls ++ [(depth, f.id)], user := items } →
      ∃ out, (nested P ops catching (fuel + 1) depth).exec s req =
        .ok ({ s with calls := s.calls ++ [(depth, f.id)], user := items }, out) ∧ answerOf out = some ⟨e1 ++ e2, none⟩ := by
    intro items hr
    have hr : Runs ops (nested P ops catching fuel (depth + 1)) f named [] ((inventoryText pl sz .add).body (z, n, ()))
        { s with calls := s.calls ++ [(depth, f.id)] } (e1.map .error ++ (e2.map .error ++ [])) (.ret ())
        { s with calls := s.calls ++ [(depth, f.id)], user := items } := by
      refine asked_bind (before := []) (kf _ (by simp)) h1 ?_
      exact asked_bind (kf _ (by simp)) h2 hr
    refine ⟨_, h.returns hm hc hr, ?_⟩
    simp only [endResult, answerOf, errorsOf_append, errorsOf_errors]
    simp [errorsOf, inventoryText, addTextDef]
  rcases ha with ⟨rfl, x, rfl⟩ | ⟨he, rfl⟩
  · rcases ht with ⟨rfl, y, rfl⟩ | ⟨he, rfl⟩
    · obtain ⟨out, o1, o2⟩ := done (s.user ++ [⟨z, n, x, 3, y⟩]) (.get (.set .ret))
      exact ⟨out, _, o1, o2, by simp, fun _ => ⟨x, y, rfl, rfl, rfl⟩⟩
    · obtain ⟨out, o1, o2⟩ := done s.user .ret
      exact ⟨out, _, o1, o2, fun _ => rfl, fun hc => absurd hc (by simp [he])⟩
  · obtain ⟨out, o1, o2⟩ := done s.user .ret
    exact ⟨out, _, o1, o2, fun _ => rfl, fun hc => absurd hc (by simp [he])⟩

/-- The items of the example (NamedExample.cpp 101-110). -/
def Vw.someItems : List (Item Bytes) :=
  [⟨0, lit "coin", 7000, 1, 3⟩, ⟨1, lit "gems", 40, 2, 3⟩, ⟨2, lit "sword", 1, 1, 2⟩, ⟨3, lit "machete", 1, 2, 2⟩, ⟨4, lit "katana", 1, 1, 2⟩,
    ⟨5, lit "rifle", 1, 1, 2⟩, ⟨6, lit "knife", 2, 2, 2⟩, ⟨7, lit "key", 1, 1, 1⟩]

example : textShown (inventoryText keptPlatform .ulong) (invSys _ someItems)
      [lit "inventory.list name=e min_amount=2", lit "inventory.add 8 pistol type=key amount=3", lit "inventory.list source=Debug",
        lit "inventory.list min_amount=x type=y name=(a b)", lit "inventory.add 9 x amount=-1", lit "inventory.list type=Key"] =
    .ok [.shown ⟨[], none, lit "ID\tName\tAmount\tSource\tType\n--\t----\t------\t------\t----\n1\tgems\t40\tReward\tCurrency\n6\tknife\t2\tReward\tWeapon\n"⟩,
      .shown ⟨[], none, []⟩,
      .shown ⟨[], none, lit "ID\tName\tAmount\tSource\tType\n--\t----\t------\t------\t----\n8\tpistol\t3\tDebug\tKey\n"⟩,
      .shown ⟨[lit "Unable to convert 'a b' to type 'string': Expected 1 subvalues, got 2", lit "Unable to convert 'x' to type 'uint64'",
        lit "Unable to convert 'y' to type 'Type': Possible values are ['None', 'Key', 'Weapon', 'Currency']"], none, []⟩,
      .shown ⟨[lit "Unable to convert '-1' to type 'uint64'"], none, []⟩,
      .shown ⟨[], none, lit "ID\tName\tAmount\tSource\tType\n--\t----\t------\t------\t----\n7\tkey\t1\tLoot\tKey\n8\tpistol\t3\tDebug\tKey\n"⟩] := by
  decide +kernel

/-- The hypotheses of `C104_list` hold for a line of the example. -/
example : (∀ i ∈ someItems, Item.Proper i) ∧
    OneForm (inventoryText keptPlatform .ulong) keptOps (invSys _ someItems) (lit "inventory.list") (inventoryText keptPlatform .ulong .list) ⟨0, .list, ()⟩ ∧
    Asked (intConv keptPlatform .ulong) (lit "min_amount") false none [⟨lit "name", ⟨[lit "e"]⟩⟩, ⟨lit "min_amount", ⟨[lit "2"]⟩⟩] [] (some 2) ∧
    Chosen (Wanted (some (lit "e")) (some 2) none none) [⟨1, lit "gems", 40, 2, 3⟩, ⟨2, lit "sword", 1, 1, 2⟩] [⟨1, lit "gems", 40, 2, 3⟩] := by
  refine ⟨by unfold Item.Proper; decide, ⟨by decide, rfl, rfl, by simp [invSys]⟩, .good ⟨[_], [], rfl, by decide⟩ rfl, .take ?_ (.skip ?_ .nil)⟩
  · refine ⟨?_, ?_, by simp, by simp⟩
    · rintro n ⟨⟩
      exact ⟨lit "g", lit "ms", rfl⟩
    · rintro n ⟨⟩
      decide
  · intro h
    exact absurd (h.amount 2 rfl) (by decide)

end Coil
