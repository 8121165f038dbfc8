import Verif.Spec.Pool
import Verif.Proofs.Fixed
import Verif.Proofs.Arith

/-!
# Entities: lemmas
-/

namespace Coil
open Spec

theorem removedIn_append (a b : List Deed) (n : Bytes) : removedIn (a ++ b) n = (removedIn a n || removedIn b n) := by
  simp [removedIn]

theorem survivors_add (h : List Deed) (n : Bytes) : survivors (h ++ [.add n]) = survivors h ++ [n] := by
  induction h with
  | nil => simp [survivors, removedIn]
  | cons x h ih =>
    cases x with
    | add m =>
      simp only [List.cons_append, survivors, removedIn_append, ih]
      have : removedIn [Deed.add n] m = false := rfl
      rw [this, Bool.or_false]
      split <;> simp
    | remove | focus => simpa [survivors] using ih

theorem survivors_focus (h : List Deed) (k : Int) : survivors (h ++ [.focus k]) = survivors h := by
  induction h with
  | nil => rfl
  | cons x h ih =>
    cases x with
    | add m =>
      simp only [List.cons_append, survivors, removedIn_append, ih]
      have : removedIn [Deed.focus k] m = false := rfl
      rw [this, Bool.or_false]
    | remove | focus => simpa [survivors] using ih

theorem survivors_remove (h : List Deed) (ns : List Bytes) : survivors (h ++ [.remove ns]) = (survivors h).filter (fun x => decide (x ∉ ns)) := by
  induction h with
  | nil => rfl
  | cons x h ih =>
    cases x with
    | add m =>
      simp only [List.cons_append, survivors, removedIn_append, ih]
      have : removedIn [Deed.remove ns] m = decide (m ∈ ns) := by simp [removedIn]
      rw [this]
      cases removedIn h m
      · by_cases hm : m ∈ ns <;> simp [hm]
      · simp
    | remove | focus => simpa [survivors] using ih

theorem focusAfter_append (h : List Deed) (x : Deed) : focusAfter (h ++ [x]) = match x with | .focus k => k | _ => focusAfter h := by
  cases x <;> simp [focusAfter]

theorem removeLoop_eq (ns l : List Bytes) : removeLoop ns l = l.filter (fun x => decide (x ∉ ns)) := by
  induction ns generalizing l with
  | nil => exact (List.filter_eq_self.2 (by simp)).symm
  | cons n ns ih =>
    rw [removeLoop, ih, List.filter_filter]
    congr 1
    funext x
    simp only [ne_eq, List.mem_cons, not_or]
    by_cases h1 : x = n <;> by_cases h2 : x ∈ ns <;> simp [h1, h2]

theorem findFrom_none {n : Bytes} {l : List Bytes} {i : Nat} : findFrom n l i = none ↔ n ∉ l := by
  induction l generalizing i with
  | nil => simp [findFrom]
  | cons x l ih =>
    simp only [findFrom]
    split
    · rename_i h; simp [h]
    · rename_i h; rw [ih]; simp [Ne.symm h]

theorem findFrom_some {n : Bytes} {l : List Bytes} {i k : Nat} (h : findFrom n l i = some k) : ∃ j, k = i + j ∧ FirstAt l n j := by
  induction l generalizing i with
  | nil => cases h
  | cons x l ih =>
    simp only [findFrom] at h
    split at h
    · rename_i e; cases h; exact ⟨0, rfl, [], l, by simp [e], by simp, rfl⟩
    · rename_i e
      obtain ⟨j, rfl, pre, post, rfl, h1, rfl⟩ := ih h
      exact ⟨pre.length + 1, by omega, x :: pre, post, rfl, by simp [Ne.symm e, h1], rfl⟩

theorem firstAt_one {l : List Bytes} {x : Bytes} {j k : Nat} (h1 : FirstAt l x j) (h2 : FirstAt l x k) : j = k := by
  obtain ⟨a, b, rfl, ha, rfl⟩ := h1
  obtain ⟨a', b', e, ha', rfl⟩ := h2
  induction a generalizing a' with
  | nil =>
    cases a' with
    | nil => rfl
    | cons y a' => simp at e; exact absurd (by simp [e.1]) ha'
  | cons y a ih =>
    cases a' with
    | nil => simp at e; exact absurd (by simp [e.1]) ha
    | cons y' a' =>
      simp at e ha ha'
      simp [ih ha.2 a' e.2 ha'.2]

theorem dyn_strings (v : Value) : (dynConv stringConv).fromString v = .ok (.ok v.subvalues) := by
  have : ∀ (l : List Bytes) (n : Bytes) (acc : List Bytes), dynLoop stringConv n v l acc = .ok (.ok (acc ++ l)) := by
    intro l n
    induction l with
    | nil => intro acc; simp [dynLoop]
    | cons s l ih =>
      intro acc
      have hs : stringConv.onTemporary s = .ok (.ok s) := rfl
      simp only [dynLoop, hs, Res.bind_ok]
      rw [ih]
      simp
  exact this _ _ _

theorem firstTaking_one {W C D : Type} {P : C → FunctorDef W C D} {n : Nat} {fs : List (C × D)} {f g : C × D} (h1 : FirstTaking P n fs f)
    (h2 : FirstTaking P n fs g) : f = g := by
  obtain ⟨a, b, rfl, h, h'⟩ := h1
  obtain ⟨a', b', e, k, k'⟩ := h2
  induction a generalizing a' with
  | nil =>
    cases a' with
    | nil => simp at e; exact e.1
    | cons y a' => simp at e; exact absurd (by rw [← e.1]; exact h) (k' y (by simp))
  | cons y a ih =>
    cases a' with
    | nil => simp at e; exact absurd (by rw [e.1]; exact k) (h' y (by simp))
    | cons y' a' =>
      simp at e
      exact ih (fun g hg => h' g (by simp [hg])) a' e.2 (fun g hg => k' g (by simp [hg]))

variable {pl : Platform} {sz : IntType} {tiny : Nat → Nat → Bool} {nan : Fl → Fl → Bool} {catching : Bool}

theorem index_iff (hsz : SizeType pl sz) {v : Value} {k : Int} :
    (entityIdConv pl sz).fromString v = .ok (.ok k) ↔ ∃ t, v = ⟨[t]⟩ ∧ IndexText t k := by
  have key : ∀ s : Bytes, sz.fromString pl s = some k ↔ IndexText s k := by
    intro s
    have hns : ¬ IsSignedParse sz := by rcases hsz with rfl | ⟨rfl, _⟩ <;> simp [IsSignedParse]
    have hb : parseBits pl sz = 64 := by rcases hsz with rfl | ⟨rfl, h⟩ <;> simp [parseBits, Platform.longBits, *]
    rw [unsigned_fromString_iff hns, hb]
    unfold IndexText
    refine ⟨fun ⟨h1, _, h2⟩ => ⟨h1, h2⟩, fun ⟨h1, h2⟩ => ⟨h1, ?_, h2⟩⟩
    obtain ⟨neg, mag, _, hm, rfl⟩ := h2
    have hlo : lo pl sz = 0 := by rcases hsz with rfl | ⟨rfl, h⟩ <;> simp [lo]
    have hhi : hi pl sz = 2 ^ 64 - 1 := by rcases hsz with rfl | ⟨rfl, h⟩ <;> simp [hi, *]
    unfold InRange
    rw [hlo, hhi]
    cases neg
    · simp; omega
    · simp; omega
  constructor
  · intro h
    simp only [entityIdConv] at h
    obtain ⟨r, h1, h2⟩ := Res.bind_eq_ok.1 h
    cases r with
    | error => simp at h2
    | ok x =>
      simp at h2
      subst h2
      match v, h1 with
      | ⟨[s]⟩, h1 =>
        refine ⟨s, rfl, (key s).1 ?_⟩
        simp only [intConv, arithConv] at h1
        split at h1 <;> simp_all
      | ⟨[]⟩, h1 => simp [intConv, arithConv] at h1
      | ⟨_ :: _ :: _⟩, h1 => simp [intConv, arithConv] at h1
  · rintro ⟨t, rfl, h⟩
    simp [entityIdConv, intConv, arithConv, (key t).2 h]

/-! ## One command -/

theorem table_name {n : Bytes} {fs : List (UserCode × Unit)} (h : Table.functions userTable n = some fs) : (n, fs) ∈ userTable := functions_mem h

theorem fn_add : Table.functions userTable (lit "entities.add") = some [(.add, ())] := by decide +kernel
theorem fn_find : Table.functions userTable (lit "entities.find") = some [(.find, ())] := by decide +kernel
theorem fn_focus : Table.functions userTable (lit "entities.focused_entity") = some [(.focus, ()), (.setFocus, ())] := by decide +kernel
theorem fn_remove : Table.functions userTable (lit "entities.remove_some") = some [(.removeSome, ())] := by decide +kernel

/-- A command that is carried out is known and its arguments convert. -/
theorem told_converts (hsz : SizeType pl sz) {h h' : List Deed} {i : Input} {r : Option Bytes} (ht : EntityTold h i h' r) :
    ∃ fs f, Table.functions userTable i.name = some fs ∧ FirstTaking (userFunctions pl sz tiny nan) i.arguments.length fs f ∧
      conversionErrors (userFunctions pl sz tiny nan f.1).params i.arguments = [] := by
  cases ht with
  | add => exact ⟨_, _, fn_add, ⟨[], [], rfl, rfl, by simp⟩, rfl⟩
  | found => exact ⟨_, _, fn_find, ⟨[], [], rfl, rfl, by simp⟩, rfl⟩
  | missing => exact ⟨_, _, fn_find, ⟨[], [], rfl, rfl, by simp⟩, rfl⟩
  | focus => exact ⟨_, _, fn_focus, ⟨[], [_], rfl, rfl, by simp⟩, rfl⟩
  | setFocus hk =>
    refine ⟨_, _, fn_focus, ⟨[_], [], rfl, rfl, by simp [userFunctions]⟩, ?_⟩
    simp [userFunctions, conversionErrors, (index_iff hsz).2 ⟨_, rfl, hk⟩]
  | remove =>
    refine ⟨_, _, fn_remove, ⟨[], [], rfl, rfl, by simp⟩, ?_⟩
    simp [userFunctions, conversionErrors, dyn_strings]

theorem says_get {W C D R : Type} {x : D} {l : List Named} {past es : List CtxEvent} {k : W → Prog W C D R} {w w' : W} {e : End R}
    (h : Says x l past (.get k) w es e w') : Says x l past (k w) w es e w' := by cases h with | get h => exact h

theorem says_set {W C D R : Type} {x : D} {l : List Named} {past es : List CtxEvent} {k : Prog W C D R} {v w w' : W} {e : End R}
    (h : Says x l past (.set v k) w es e w') : Says x l past k v es e w' := by cases h with | set h => exact h

theorem says_ret {W C D R : Type} {x : D} {l : List Named} {past es : List CtxEvent} {r : R} {w w' : W} {e : End R}
    (h : Says (W := W) (C := C) x l past (.ret r) w es e w') : es = [] ∧ e = .ret r ∧ w' = w := by cases h with | ret => exact ⟨rfl, rfl, rfl⟩

/-- The other commands leave the entities alone. -/
theorem says_others {f : UserCode} (hf : f ∉ [UserCode.add, .find, .focus, .setFocus, .removeSome]) {xs : Args (userFunctions pl sz tiny nan f).params}
    {l : List Named} {es : List CtxEvent} {e : End (userFunctions pl sz tiny nan f).R} {w w' : UserWorld}
    (h : Says () l [] ((userFunctions pl sz tiny nan f).body xs) w es e w') : w'.pool = w.pool := by
  cases f with
  | add | find | focus | setFocus | removeSome => simp at hf
  | spawn => have h := says_get h; have h := says_set h; obtain ⟨_, _, rfl⟩ := says_ret h; rfl
  | posAt => have h := says_get h; obtain ⟨_, _, rfl⟩ := says_ret h; rfl
  | pos => have h := says_get h; obtain ⟨_, _, rfl⟩ := says_ret h; rfl
  | setPos => have h := says_get h; have h := says_set h; have h := says_get h; obtain ⟨_, _, rfl⟩ := says_ret h; rfl
  | sum =>
    simp only [userFunctions, sumDef, Prog.ofRes] at h
    split at h
    · obtain ⟨_, _, rfl⟩ := says_ret h; rfl
    · cases h
    · cases h

theorem firstTaking_mem {W C D : Type} {P : C → FunctorDef W C D} {n : Nat} {fs : List (C × D)} {f : C × D} (h : FirstTaking P n fs f) : f ∈ fs := by
  obtain ⟨a, b, rfl, _⟩ := h
  simp

theorem other_codes {n : Bytes} (hn : n ∉ entityNames) {fs : List (UserCode × Unit)} (h : Table.functions userTable n = some fs) {f : UserCode × Unit}
    (hf : f ∈ fs) : f.1 ∉ [UserCode.add, .find, .focus, .setFocus, .removeSome] := by
  have hm := functions_mem h
  simp only [userTable, List.mem_cons, List.not_mem_nil, or_false, Prod.mk.injEq] at hm
  simp only [entityNames, List.mem_cons, List.not_mem_nil, or_false, not_or] at hn
  rcases hm with ⟨e, rfl⟩ | ⟨e, rfl⟩ | ⟨e, rfl⟩ | ⟨e, rfl⟩ | ⟨_, rfl⟩ | ⟨_, rfl⟩ | ⟨_, rfl⟩ | ⟨_, rfl⟩
  · exact absurd e hn.1
  · exact absurd e hn.2.1
  · exact absurd e hn.2.2.1
  · exact absurd e hn.2.2.2
  all_goals
    simp only [List.mem_cons, List.not_mem_nil, or_false] at hf
  · subst hf; decide
  · subst hf; decide
  · rcases hf with rfl | rfl <;> decide
  · subst hf; decide

theorem entity_known {n : Bytes} (hn : n ∈ entityNames) : n ≠ [] ∧ ∃ fs, Table.functions userTable n = some fs := by
  simp only [entityNames, List.mem_cons, List.not_mem_nil, or_false] at hn
  rcases hn with rfl | rfl | rfl | rfl
  · exact ⟨by decide +kernel, _, fn_add⟩
  · exact ⟨by decide +kernel, _, fn_find⟩
  · exact ⟨by decide +kernel, _, fn_focus⟩
  · exact ⟨by decide +kernel, _, fn_remove⟩

/-- The functions for entities do what is told. -/
theorem entity_returns (hsz : SizeType pl sz) {w w' : UserWorld} {h : List Deed} (hk : Keeps w.pool h) {i : Input} (hn : i.name ∈ entityNames)
    {fs : List (UserCode × Unit)} {f : UserCode × Unit} (hfs : Table.functions userTable i.name = some fs)
    (hf : FirstTaking (userFunctions pl sz tiny nan) i.arguments.length fs f) {xs : Args (userFunctions pl sz tiny nan f.1).params}
    (hx : ConvertTo (userFunctions pl sz tiny nan f.1).params i.arguments xs) {es : List CtxEvent} {e : End (userFunctions pl sz tiny nan f.1).R}
    (hs : Says f.2 i.namedArguments [] ((userFunctions pl sz tiny nan f.1).body xs) w es e w') :
    es = [] ∧ ∃ r h', e = .ret r ∧ Keeps w'.pool h' ∧
      EntityTold h i h' ((userFunctions pl sz tiny nan f.1).print.map (fun p => p r)) := by
  obtain ⟨name, args, named⟩ := i
  obtain ⟨c, u⟩ := f
  obtain ⟨k1, k2⟩ := hk
  have hmem := firstTaking_mem hf
  simp only [entityNames, List.mem_cons, List.not_mem_nil, or_false] at hn
  dsimp only at hfs hf hx hs hn
  rcases hn with rfl | rfl | rfl | rfl
  · rw [fn_add] at hfs
    cases hfs
    simp only [List.mem_cons, List.not_mem_nil, or_false, Prod.mk.injEq] at hmem
    obtain ⟨rfl, _⟩ := hmem
    match args, hx with
    | [v], hx =>
      obtain ⟨x, _⟩ := xs
      have hv := string_reads.1 hx.1
      subst hv
      have hs := says_get hs
      have hs := says_set hs
      obtain ⟨rfl, rfl, rfl⟩ := says_ret hs
      refine ⟨rfl, _, h ++ [.add x], rfl, ⟨?_, ?_⟩, ?_⟩
      · simp [Pool.add, survivors_add, k1]
      · simp [Pool.add, focusAfter_append, k2]
      · have : (survivors h).length = w.pool.names.length := by rw [k1]
        have ht := EntityTold.add (h := h) (n := x) (named := named)
        rw [this] at ht
        exact ht
  · rw [fn_find] at hfs
    cases hfs
    simp only [List.mem_cons, List.not_mem_nil, or_false, Prod.mk.injEq] at hmem
    obtain ⟨rfl, _⟩ := hmem
    match args, hx with
    | [v], hx =>
      obtain ⟨x, _⟩ := xs
      have hv := string_reads.1 hx.1
      subst hv
      have hs := says_get hs
      obtain ⟨rfl, rfl, rfl⟩ := says_ret hs
      refine ⟨rfl, _, h, rfl, ⟨k1, k2⟩, ?_⟩
      show EntityTold h _ h (some ((optConv (entityIdConv pl sz)).toString ((findFrom x w'.pool.names 0).map Int.ofNat)))
      cases hfind : findFrom x w'.pool.names 0 with
      | none => exact .missing (by rw [← k1]; exact findFrom_none.1 hfind)
      | some k =>
        obtain ⟨j, rfl, hj⟩ := findFrom_some hfind
        rw [Nat.zero_add]
        exact .found (by rw [← k1]; exact hj)
  · rw [fn_focus] at hfs
    cases hfs
    simp only [List.mem_cons, List.not_mem_nil, or_false, Prod.mk.injEq] at hmem
    rcases hmem with ⟨rfl, _⟩ | ⟨rfl, _⟩
    · match args, hx with
      | [], hx =>
        have hs := says_get hs
        obtain ⟨rfl, rfl, rfl⟩ := says_ret hs
        refine ⟨rfl, _, h, rfl, ⟨k1, k2⟩, ?_⟩
        show EntityTold h _ h (some (idText w'.pool.focused))
        rw [k2]
        exact .focus
    · match args, hx with
      | [v], hx =>
        obtain ⟨x, _⟩ := xs
        obtain ⟨t, rfl, ht⟩ := (index_iff hsz).1 hx.1
        have hs := says_get hs
        have hs := says_set hs
        have hs := says_get hs
        obtain ⟨rfl, rfl, rfl⟩ := says_ret hs
        refine ⟨rfl, _, h ++ [.focus x], rfl, ⟨?_, ?_⟩, ?_⟩
        · simp [focusRef, survivors_focus, k1]
        · simp [focusRef, focusAfter_append]
        · exact .setFocus ht
  · rw [fn_remove] at hfs
    cases hfs
    simp only [List.mem_cons, List.not_mem_nil, or_false, Prod.mk.injEq] at hmem
    obtain ⟨rfl, _⟩ := hmem
    match args, hx with
    | [v], hx =>
      obtain ⟨x, _⟩ := xs
      have hv := hx.1
      have : v.subvalues = x := by
        have := (dyn_strings v).symm.trans hv
        simpa using this
      subst this
      have hs := says_get hs
      have hs := says_set hs
      obtain ⟨rfl, rfl, rfl⟩ := says_ret hs
      refine ⟨rfl, _, h ++ [.remove v.subvalues], rfl, ⟨?_, ?_⟩, ?_⟩
      · simp [Pool.removeSome, survivors_remove, k1, removeLoop_eq]
      · simp [Pool.removeSome, focusAfter_append, k2]
      · exact .remove

theorem entity_step (hsz : SizeType pl sz) {w w' : UserWorld} {h : List Deed} (hk : Keeps w.pool h) {i : Input} {out : ExecOut}
    (hr : Replies (userFunctions pl sz tiny nan) catching userTable w i w' out) : ∃ h', Keeps w'.pool h' ∧ EntityEffect h i h' out := by
  have no : ∀ {es : List Bytes}, es ≠ [] → (¬ ∃ h1 v, EntityTold h i h1 v) → EntityEffect h i h (.ok ⟨i, es, none, []⟩) := fun hes hno =>
    ⟨fun _ => ⟨_, rfl, rfl, .inr ⟨hno, rfl, rfl, hes⟩⟩, fun _ => rfl⟩
  by_cases hn : i.name ∈ entityNames
  · obtain ⟨hne, fs0, hfs0⟩ := entity_known hn
    cases hr with
    | noName h0 => exact absurd h0 hne
    | unknown _ h0 => rw [hfs0] at h0; cases h0
    | count _ hfs hno =>
      refine ⟨h, hk, no (by simp) ?_⟩
      rintro ⟨h1, v, ht⟩
      obtain ⟨fs', f, g1, g2, _⟩ := told_converts (tiny := tiny) (nan := nan) hsz ht
      rw [hfs] at g1
      cases g1
      obtain ⟨_, _, _, g3, _⟩ := id g2
      exact hno f (firstTaking_mem g2) g3
    | mismatch _ hfs hf _ he =>
      refine ⟨h, hk, no he ?_⟩
      rintro ⟨h1, v, ht⟩
      obtain ⟨fs', f', g1, g2, g3⟩ := told_converts (tiny := tiny) (nan := nan) hsz ht
      rw [hfs] at g1
      cases g1
      cases firstTaking_one g2 hf
      exact he g3
    | returned _ hfs hf hx hs =>
      obtain ⟨rfl, r, h', g1, g2, g3⟩ := entity_returns hsz hk hn hfs hf hx hs
      cases g1
      exact ⟨h', g2, fun _ => ⟨_, rfl, rfl, .inl ⟨g3, rfl⟩⟩, fun h => absurd hn h⟩
    | thrown _ hfs hf hx hs =>
      obtain ⟨_, _, _, g1, _⟩ := entity_returns hsz hk hn hfs hf hx hs
      cases g1
  · refine ⟨h, ?_, fun h' => absurd h' hn, fun _ => rfl⟩
    cases hr with
    | noName | unknown | count | mismatch => exact hk
    | returned _ hfs hf _ hs => rw [says_others (other_codes hn hfs (firstTaking_mem hf)) hs]; exact hk
    | thrown _ hfs hf _ hs => rw [says_others (other_codes hn hfs (firstTaking_mem hf)) hs]; exact hk

theorem entity_talk (hsz : SizeType pl sz) {d : Delims} {w w' : UserWorld} {reqs : List Request} {outs : List ExecOut}
    (ht : Talk (userFunctions pl sz tiny nan) catching userTable d w reqs outs w') :
    ∀ {h : List Deed}, Keeps w.pool h → ∃ h', EntityStory d h reqs outs h' ∧ Keeps w'.pool h' := by
  induction ht with
  | nil => exact fun hk => ⟨_, .nil, hk⟩
  | wrong hm _ ih =>
    intro h hk
    obtain ⟨h', g1, g2⟩ := ih hk
    exact ⟨h', .wrong hm.2 g1, g2⟩
  | line hi hr _ ih =>
    intro h hk
    obtain ⟨h1, g1, g2⟩ := entity_step hsz hk hr
    obtain ⟨h', g3, g4⟩ := ih g1
    exact ⟨h', .line hi.2 g2 g3, g4⟩
  | input hr _ ih =>
    intro h hk
    obtain ⟨h1, g1, g2⟩ := entity_step hsz hk hr
    obtain ⟨h', g3, g4⟩ := ih g1
    exact ⟨h', .input g2 g3, g4⟩

theorem user_quiet : AllQuiet (userFunctions pl sz tiny nan) := by
  intro c xs
  cases c with
  | add | removeSome => exact .get fun _ => .set .ret
  | find | focus | pos => exact .get fun _ => .ret
  | setFocus | setPos => exact .get fun _ => .set (.get fun _ => .ret)
  | spawn => exact .get fun _ => .set .ret
  | posAt => exact .get fun _ => .ret
  | sum =>
    simp only [userFunctions, sumDef, Prog.ofRes]
    split
    · exact .ret
    · exact .ub
    · exact .diverge

theorem told_inv {h h' : List Deed} {i : Input} {r : Option Bytes} (t : EntityTold h i h' r) :
    (i.name = lit "entities.add" ∧ ∃ n, i.arguments = [⟨[n]⟩] ∧ h' = h ++ [.add n] ∧ r = some (idText (survivors h).length)) ∨
    (i.name = lit "entities.find" ∧ ∃ n, i.arguments = [⟨[n]⟩] ∧ h' = h ∧
      ((∃ k, FirstAt (survivors h) n k ∧ r = some (idText k)) ∨ (n ∉ survivors h ∧ r = some []))) ∨
    (i.name = lit "entities.focused_entity" ∧ ((i.arguments = [] ∧ h' = h ∧ r = some (idText (focusAfter h))) ∨
      ∃ t k, i.arguments = [⟨[t]⟩] ∧ IndexText t k ∧ h' = h ++ [.focus k] ∧ r = some (idText k))) ∨
    (i.name = lit "entities.remove_some" ∧ ∃ v, i.arguments = [v] ∧ h' = h ++ [.remove v.subvalues] ∧ r = none) := by
  cases t with
  | add => exact .inl ⟨rfl, _, rfl, rfl, rfl⟩
  | found hk => exact .inr (.inl ⟨rfl, _, rfl, rfl, .inl ⟨_, hk, rfl⟩⟩)
  | missing hm => exact .inr (.inl ⟨rfl, _, rfl, rfl, .inr ⟨hm, rfl⟩⟩)
  | focus => exact .inr (.inr (.inl ⟨rfl, .inl ⟨rfl, rfl, rfl⟩⟩))
  | setFocus hk => exact .inr (.inr (.inl ⟨rfl, .inr ⟨_, _, rfl, hk, rfl, rfl⟩⟩))
  | remove => exact .inr (.inr (.inr ⟨rfl, _, rfl, rfl, rfl⟩))

theorem survivors_split (h later : List Deed) :
    survivors (h ++ later) = (survivors h).filter (fun m => !removedIn later m) ++ survivors later := by
  induction h with
  | nil => rfl
  | cons x h ih =>
    cases x with
    | add m =>
      simp only [List.cons_append, survivors, removedIn_append, ih]
      cases h1 : removedIn h m <;> cases h2 : removedIn later m <;> simp [h2]
    | remove | focus => simpa [survivors] using ih

theorem no_numeral (k : Int) {neg : Bool} {mag : Nat} : ¬ SignedNumeral (lit "EntityId{" ++ intDec k ++ lit "}") neg mag := by
  rintro ⟨ws, sg, ds, e, _, _, hd⟩
  have last : ∀ {ds : Bytes} {m : Nat}, Decimal ds m → ∃ ds' c n, ds = ds' ++ [c] ∧ Digit c n := by
    intro ds m hd
    cases hd with
    | one h => exact ⟨[], _, _, rfl, h⟩
    | snoc _ h => exact ⟨_, _, _, rfl, h⟩
  obtain ⟨ds', c, n, rfl, ⟨hn, hc⟩⟩ := last hd
  have e' : (lit "EntityId{" ++ intDec k) ++ [125] = (ws ++ (sg ++ ds')) ++ [c] := by
    simpa [show lit "}" = [125] from by decide +kernel] using e
  have := (List.append_inj' e' rfl).2
  cases this
  simp at hc
  omega

end Coil
