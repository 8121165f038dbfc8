import Verif.Proofs.Exec
import Verif.Proofs.UMapEntries
import Verif.Props.UMap
import Verif.Spec.Registry

/-! # The registry along executions -/

namespace Coil
open Spec

section Preserved

variable {S W C D R : Type} {P : C → FunctorDef W C D} {ops : RegOps S C D} {catching : Bool} {fuel depth : Nat}
  {s s' : Sys S W C D} {req : Request} {out : ExecOut}

/-- A property of programs that every elementary step preserves. -/
structure Preserved (ops : RegOps S C D) (I : Sys S W C D → Prop) : Prop where
  user : ∀ s w, I s → I { s with user := w }
  calls : ∀ s x, I s → I { s with calls := x }
  add : ∀ s n fs s', I s → bindingsAdd ops s n fs = .ok s' → I s'
  remove : ∀ s n s', I s → bindingsRemove ops s n = .ok s' → I s'
  clear : ∀ s, I s → I (bindingsClear ops s)

variable {I : Sys S W C D → Prop}

theorem Preserved.runs (hp : Preserved ops I) {ne : Nested S W C D}
    (hne : ∀ s req s' out, I s → ne.exec s req = .ok (s', out) → I s')
    {self : Inst C D} {l : List Named} {past es : List CtxEvent} {p : Prog W C D R} {e : End R}
    (h : Runs ops ne self l past p s es e s') (hi : I s) : I s' := by
  induction h with
  | ret => exact hi
  | throw => exact hi
  | log _ ih => exact ih hi
  | logline _ ih => exact ih hi
  | reportError _ ih => exact ih hi
  | hasErrors _ ih => exact ih hi
  | named _ ih => exact ih hi
  | setNamed _ _ ih => exact ih hi
  | get _ ih => exact ih hi
  | set _ ih => exact ih (hp.user _ _ hi)
  | captured _ _ ih => exact ih hi
  | add h0 _ ih => exact ih (hp.add _ _ _ _ hi h0)
  | remove h0 _ ih => exact ih (hp.remove _ _ _ hi h0)
  | clear _ ih => exact ih (hp.clear _ hi)
  | execLine h0 _ ih => exact ih (hne _ (.line _) _ _ hi h0)
  | execInput h0 _ ih => exact ih (hne _ (.input _) _ _ hi h0)

theorem Preserved.steps (hp : Preserved ops I) {ne : Nested S W C D}
    (hne : ∀ s req s' out, I s → ne.exec s req = .ok (s', out) → I s')
    {self : Inst C D} {l : List Named} {past past' : List CtxEvent} {p p' : Prog W C D R}
    (h : StepsTo ops ne self l past p s past' p' s') (hi : I s) : I s' := by
  induction h with
  | here => exact hi
  | log _ ih => exact ih hi
  | logline _ ih => exact ih hi
  | reportError _ ih => exact ih hi
  | hasErrors _ ih => exact ih hi
  | named _ ih => exact ih hi
  | setNamed _ _ ih => exact ih hi
  | get _ ih => exact ih hi
  | set _ ih => exact ih (hp.user _ _ hi)
  | captured _ _ ih => exact ih hi
  | add h0 _ ih => exact ih (hp.add _ _ _ _ hi h0)
  | remove h0 _ ih => exact ih (hp.remove _ _ _ hi h0)
  | clear _ ih => exact ih (hp.clear _ hi)
  | execLine h0 _ ih => exact ih (hne _ (.line _) _ _ hi h0)
  | execInput h0 _ ih => exact ih (hne _ (.input _) _ _ hi h0)

theorem Preserved.exec (hp : Preserved ops I) (fuel : Nat) :
    ∀ (depth : Nat) (s : Sys S W C D) (req : Request) (s' : Sys S W C D) (out : ExecOut), I s →
      (nested P ops catching fuel depth).exec s req = .ok (s', out) → I s' := by
  induction fuel with
  | zero =>
    intro depth s req s' out _ h
    obtain ⟨_, h, _⟩ := exec_ok h
    omega
  | succ fuel ih =>
    intro depth s req s' out hi h
    obtain ⟨f', hf, h⟩ := exec_ok h
    cases hf
    rcases h with ⟨_, _, _, _, _, _, rfl, _⟩ | ⟨i, _, h⟩
    · exact hi
    · rcases executeInput_cases h with ⟨_, rfl, _⟩ | ⟨_, _, rfl, _⟩ | ⟨_, _, _, _, rfl, _⟩ |
        ⟨_, _, _, _, _, _, _, _, rfl, _⟩ | ⟨_, _, f, _, _, _, _, _, _, _, hr, _⟩
      · exact hi
      · exact hi
      · exact hi
      · exact hi
      · exact hp.runs (ih (depth + 1)) hr (hp.calls _ _ hi)

theorem Preserved.actAll (hp : Preserved ops I) (hl : ∀ s l, I s → I (setLexer s l)) {acts : List (Action W C D)}
    (h : actAll P ops catching fuel s acts = .ok s') (hi : I s) : I s' := by
  induction acts generalizing s with
  | nil => cases h; exact hi
  | cons a acts ih =>
    simp only [Coil.actAll, Res.bind_eq_ok] at h
    obtain ⟨s1, h1, h2⟩ := h
    refine ih h2 ?_
    cases a with
    | add n fs => exact hp.add _ _ _ _ hi h1
    | remove n => exact hp.remove _ _ _ hi h1
    | clear => cases h1; exact hp.clear _ hi
    | setLexer l => cases h1; exact hl _ _ hi
    | exec req =>
      simp only [act, Res.bind_eq_ok] at h1
      obtain ⟨⟨s2, o⟩, h3, h4⟩ := h1
      cases h4
      exact hp.exec fuel 0 _ _ _ _ hi h3
    | setUser w => cases h1; exact hp.user _ _ hi

end Preserved

/-! ## What any container of the commands must do -/

/-- Laws of a container that every state of the hash map obeys, damaged or not. -/
structure RegLaws {S C D : Type} (ops : RegOps S C D) (ents : S → List (Bytes × Command C D)) : Prop where
  all : ∀ m, ops.all m = (ents m).map Prod.snd
  find : ∀ {m k c}, ops.find m k = .ok (some c) → (k, c) ∈ ents m
  put_new : ∀ {m k c m'}, ops.find m k = .ok none → ops.put m k c = .ok m' → ents m' = ents m ++ [(k, c)]
  put_old : ∀ {m k c c0 m'}, ops.find m k = .ok (some c0) → ops.put m k c = .ok m' →
    ∃ l1 l2, ents m = l1 ++ (k, c0) :: l2 ∧ ents m' = l1 ++ (k, c) :: l2
  erase_found : ∀ {m k c0 m'}, ops.find m k = .ok (some c0) → ops.erase m k = .ok m' →
    (ents m).Perm ((k, c0) :: ents m')
  erase_missing : ∀ {m k m'}, ops.find m k = .ok none → ops.erase m k = .ok m' → m' = m
  clear : ∀ m, ents (ops.clear m) = []

/-- The hash map obeys the laws. -/
theorem mapLaws {C D : Type} (fixed charSigned : Bool) (exceeds : Nat → Nat → Bool) :
    RegLaws (mapOps (C := C) (D := D) fixed charSigned exceeds) UMap.entries where
  all _ := rfl
  find h := UMap.find_mem h
  put_new h1 h2 := UMap.put_new h1 h2
  put_old h1 h2 := UMap.put_old h1 h2
  erase_found h1 h2 := UMap.erase_found h1 h2
  erase_missing h1 h2 := UMap.erase_missing h1 h2
  clear _ := rfl

section Owned

variable {S W C D R : Type} {P : C → FunctorDef W C D} {ops : RegOps S C D} {catching : Bool} {fuel depth : Nat}
  {s s' : Sys S W C D} {req : Request} {out : ExecOut} {ents : S → List (Bytes × Command C D)}

/-- The addresses of all function objects in a list of entries. -/
def entIds (l : List (Bytes × Command C D)) : List Nat := l.flatMap (fun p => p.2.ids)

theorem entIds_append (l1 l2 : List (Bytes × Command C D)) : entIds (l1 ++ l2) = entIds l1 ++ entIds l2 := by
  simp [entIds]

theorem entIds_cons (p : Bytes × Command C D) (l : List (Bytes × Command C D)) :
    entIds (p :: l) = p.2.ids ++ entIds l := rfl

theorem mem_entIds {l : List (Bytes × Command C D)} {id : Nat} :
    id ∈ entIds l ↔ ∃ k c, (k, c) ∈ l ∧ id ∈ c.ids := by
  simp only [entIds, List.mem_flatMap]
  constructor
  · rintro ⟨⟨k, c⟩, h1, h2⟩
    exact ⟨k, c, h1, h2⟩
  · rintro ⟨k, c, h1, h2⟩
    exact ⟨(k, c), h1, h2⟩

theorem entIds_perm {l1 l2 : List (Bytes × Command C D)} (h : l1.Perm l2) : (entIds l1).Perm (entIds l2) := by
  induction h with
  | nil => exact .refl _
  | cons x _ ih => exact List.Perm.append_left _ ih
  | swap x y l =>
    simp only [entIds_cons, ← List.append_assoc]
    exact List.Perm.append_right _ List.perm_append_comm
  | trans _ _ ih1 ih2 => exact ih1.trans ih2

theorem allocate_ids (n : Nat) (fs : List (C × D)) :
    (allocate n fs).map Inst.id = List.range' n fs.length := by
  induction fs generalizing n with
  | nil => rfl
  | cons f fs ih => simp [allocate, ih, List.range'_succ]

theorem allocate_defs (n : Nat) (fs : List (C × D)) :
    (allocate n fs).map (fun f => (f.code, f.data)) = fs := by
  induction fs generalizing n with
  | nil => rfl
  | cons f fs ih => simp [allocate, ih]

/-- Every function object belongs to one command, was allocated and has not been destroyed, and every command is stored
under its name, as it was added. -/
structure Owned (ents : S → List (Bytes × Command C D)) (s : Sys S W C D) : Prop where
  name : ∀ k c, (k, c) ∈ ents s.reg → c.name = k
  added : ∀ k c, (k, c) ∈ ents s.reg → RegEvent.added k c.functors ∈ s.history
  nodup : (entIds (ents s.reg)).Nodup
  live : ∀ id ∈ entIds (ents s.reg), id ∉ s.freed
  used : ∀ id ∈ entIds (ents s.reg), id < s.next
  past : ∀ id ∈ s.freed, id < s.next

theorem idsOf_sub (laws : RegLaws ops ents) {m : S} {k : Bytes} {o : Option (Command C D)} (h : ops.find m k = .ok o) :
    ∀ id ∈ idsOf o, id ∈ entIds (ents m) := by
  intro id hid
  cases o with
  | none => simp [idsOf] at hid
  | some c => exact mem_entIds.2 ⟨k, c, laws.find h, hid⟩

theorem owned_add (laws : RegLaws ops ents) {n : Bytes} {fs : List (C × D)} (o : Owned ents s)
    (h : bindingsAdd ops s n fs = .ok s') : Owned ents s' := by
  simp only [bindingsAdd, Res.bind_eq_ok, Res.ok.injEq] at h
  obtain ⟨old, h1, reg, h2, rfl⟩ := h
  have hids : ((⟨n, allocate s.next fs⟩ : Command C D)).ids = List.range' s.next fs.length := allocate_ids _ _
  have hnew : ∀ id, id ∈ ((⟨n, allocate s.next fs⟩ : Command C D)).ids → s.next ≤ id ∧ id < s.next + fs.length := by
    intro id hid
    rw [hids, List.mem_range'_1] at hid
    exact hid
  have hfl : ∀ id ∈ s.freed ++ idsOf old, id < s.next := by
    intro id hid
    rcases List.mem_append.1 hid with hid | hid
    · exact o.past _ hid
    · exact o.used _ (idsOf_sub laws h1 _ hid)
  have hndnew : ((⟨n, allocate s.next fs⟩ : Command C D)).ids.Nodup := by rw [hids]; exact List.nodup_range'
  cases old with
  | none =>
    have he := laws.put_new h1 h2
    have hmem : ∀ k c, (k, c) ∈ ents reg → (k, c) ∈ ents s.reg ∨ (k = n ∧ c = ⟨n, allocate s.next fs⟩) := by
      intro k c hk
      rw [he] at hk
      rcases List.mem_append.1 hk with hk | hk
      · exact .inl hk
      · simp at hk; exact .inr hk
    have hnd : entIds (ents reg) = entIds (ents s.reg) ++ ((⟨n, allocate s.next fs⟩ : Command C D)).ids := by
      rw [he, entIds_append]
      simp [entIds]
    refine ⟨?_, ?_, ?_, ?_, ?_, ?_⟩
    · intro k c hk
      rcases hmem k c hk with hk | ⟨rfl, rfl⟩
      · exact o.name _ _ hk
      · rfl
    · intro k c hk
      rcases hmem k c hk with hk | ⟨rfl, rfl⟩
      · exact List.mem_append_left _ (o.added _ _ hk)
      · exact List.mem_append_right _ (List.mem_singleton.2 rfl)
    · simp only [hnd]
      refine List.nodup_append.2 ⟨o.nodup, hndnew, ?_⟩
      intro a ha b hb hab
      subst hab
      have := o.used _ ha
      have := (hnew _ hb).1
      omega
    · simp only [hnd, idsOf, List.append_nil]
      intro id hid
      rcases List.mem_append.1 hid with hid | hid
      · exact o.live _ hid
      · intro hf
        have := o.past _ hf
        have := (hnew _ hid).1
        omega
    · simp only [hnd]
      intro id hid
      rcases List.mem_append.1 hid with hid | hid
      · have := o.used _ hid; omega
      · exact (hnew _ hid).2
    · intro id hid
      have := hfl id hid
      show id < s.next + fs.length
      omega
  | some c0 =>
    obtain ⟨l1, l2, e1, e2⟩ := laws.put_old h1 h2
    have ho := o.nodup
    rw [e1, entIds_append, entIds_cons] at ho
    have hsub : ∀ id, id ∈ entIds l1 ∨ id ∈ entIds l2 → id ∈ entIds (ents s.reg) := by
      intro id hid
      rw [e1, entIds_append, entIds_cons]
      rcases hid with h | h
      · exact List.mem_append_left _ h
      · exact List.mem_append_right _ (List.mem_append_right _ h)
    have hnd : entIds (ents reg) = entIds l1 ++ (((⟨n, allocate s.next fs⟩ : Command C D)).ids ++ entIds l2) := by
      rw [e2, entIds_append, entIds_cons]
    have hmem : ∀ k c, (k, c) ∈ ents reg → (k, c) ∈ ents s.reg ∨ (k = n ∧ c = ⟨n, allocate s.next fs⟩) := by
      intro k c hk
      rw [e2] at hk
      rw [e1]
      simp only [List.mem_append, List.mem_cons, Prod.mk.injEq] at hk ⊢
      rcases hk with h | h | h
      · exact .inl (.inl h)
      · exact .inr h
      · exact .inl (.inr (.inr h))
    have hids2 : ∀ id, id ∈ entIds (ents reg) → (id ∈ entIds l1 ∨ id ∈ entIds l2) ∨
        id ∈ ((⟨n, allocate s.next fs⟩ : Command C D)).ids := by
      intro id hid
      rw [hnd] at hid
      simp only [List.mem_append] at hid
      rcases hid with h | h | h
      · exact .inl (.inl h)
      · exact .inr h
      · exact .inl (.inr h)
    refine ⟨?_, ?_, ?_, ?_, ?_, ?_⟩
    · intro k c hk
      rcases hmem k c hk with hk | ⟨rfl, rfl⟩
      · exact o.name _ _ hk
      · rfl
    · intro k c hk
      rcases hmem k c hk with hk | ⟨rfl, rfl⟩
      · exact List.mem_append_left _ (o.added _ _ hk)
      · exact List.mem_append_right _ (List.mem_singleton.2 rfl)
    · simp only [hnd]
      rw [List.nodup_append] at ho
      obtain ⟨n1, n2, n3⟩ := ho
      rw [List.nodup_append] at n2
      obtain ⟨n4, n5, n6⟩ := n2
      refine List.nodup_append.2 ⟨n1, List.nodup_append.2 ⟨hndnew, n5, ?_⟩, ?_⟩
      · intro a ha b hb hab
        subst hab
        have := o.used _ (hsub _ (.inr hb))
        have := (hnew _ ha).1
        omega
      · intro a ha b hb hab
        subst hab
        rcases List.mem_append.1 hb with hb | hb
        · have := o.used _ (hsub _ (.inl ha))
          have := (hnew _ hb).1
          omega
        · exact n3 a ha a (List.mem_append_right _ hb) rfl
    · intro id hid hf
      rcases hids2 id hid with hid | hid
      · rcases List.mem_append.1 hf with hf | hf
        · exact o.live _ (hsub _ hid) hf
        · rw [List.nodup_append] at ho
          obtain ⟨n1, n2, n3⟩ := ho
          rw [List.nodup_append] at n2
          obtain ⟨n4, n5, n6⟩ := n2
          rcases hid with hid | hid
          · exact n3 id hid id (List.mem_append_left _ hf) rfl
          · exact n6 id hf id hid rfl
      · have := hfl id hf
        have := (hnew _ hid).1
        omega
    · intro id hid
      show id < s.next + fs.length
      rcases hids2 id hid with hid | hid
      · have := o.used _ (hsub _ hid); omega
      · exact (hnew _ hid).2
    · intro id hid
      have := hfl id hid
      show id < s.next + fs.length
      omega

theorem owned_remove (laws : RegLaws ops ents) {n : Bytes} (o : Owned ents s)
    (h : bindingsRemove ops s n = .ok s') : Owned ents s' := by
  simp only [bindingsRemove, Res.bind_eq_ok, Res.ok.injEq] at h
  obtain ⟨old, h1, reg, h2, rfl⟩ := h
  cases old with
  | none =>
    have := laws.erase_missing h1 h2
    subst this
    refine ⟨o.name, fun k c h => List.mem_append_left _ (o.added k c h), o.nodup, ?_, o.used, ?_⟩
    · simp only [idsOf, List.append_nil]; exact o.live
    · simp only [idsOf, List.append_nil]; exact o.past
  | some c0 =>
    have hp := laws.erase_found h1 h2
    have hpi := entIds_perm hp
    rw [entIds_cons] at hpi
    have hnd := hpi.nodup_iff.1 o.nodup
    rw [List.nodup_append] at hnd
    obtain ⟨n1, n2, n3⟩ := hnd
    have hsub : ∀ id ∈ entIds (ents reg), id ∈ entIds (ents s.reg) := fun id hid =>
      hpi.mem_iff.2 (List.mem_append_right _ hid)
    refine ⟨fun k c h => o.name k c (hp.mem_iff.2 (List.mem_cons_of_mem _ h)),
      fun k c h => List.mem_append_left _ (o.added k c (hp.mem_iff.2 (List.mem_cons_of_mem _ h))), n2, ?_,
      fun id hid => o.used id (hsub id hid), ?_⟩
    · intro id hid hf
      rcases List.mem_append.1 hf with hf | hf
      · exact o.live _ (hsub _ hid) hf
      · exact n3 id hf id hid rfl
    · intro id hf
      rcases List.mem_append.1 hf with hf | hf
      · exact o.past _ hf
      · exact o.used _ (idsOf_sub laws h1 _ hf)

theorem all_ids (laws : RegLaws ops ents) (m : S) : (ops.all m).flatMap Command.ids = entIds (ents m) := by
  rw [laws.all, entIds, List.flatMap_map]

theorem owned_clear (laws : RegLaws ops ents) (o : Owned ents s) : Owned ents (bindingsClear ops s) := by
  have he : ents (bindingsClear ops s).reg = [] := laws.clear _
  refine ⟨by simp [he], by simp [he], by simp [he, entIds], by simp [he, entIds], by simp [he, entIds], ?_⟩
  intro id hid
  rcases List.mem_append.1 hid with hid | hid
  · exact o.past _ hid
  · rw [all_ids laws] at hid
    exact o.used _ hid

theorem owned_preserved (laws : RegLaws ops ents) : Preserved ops (Owned (W := W) ents) where
  user _ _ o := ⟨o.name, o.added, o.nodup, o.live, o.used, o.past⟩
  calls _ _ o := ⟨o.name, o.added, o.nodup, o.live, o.used, o.past⟩
  add _ _ _ _ o h := owned_add laws o h
  remove _ _ _ o h := owned_remove laws o h
  clear _ o := owned_clear laws o

theorem owned_setLexer (l : Option Lexer) (o : Owned ents s) : Owned ents (setLexer s l) :=
  ⟨o.name, o.added, o.nodup, o.live, o.used, o.past⟩

/-! ## A command that is not touched -/

/-- The history only grew, and if no change since concerned the name, its entry is still there. -/
def Kept (ents : S → List (Bytes × Command C D)) (h0 : List (RegEvent C D)) (name : Bytes) (c : Command C D)
    (s : Sys S W C D) : Prop :=
  ∃ h2, s.history = h0 ++ h2 ∧ ((∀ ev ∈ h2, ¬ Touches name ev) → (name, c) ∈ ents s.reg)

theorem Kept.step {h0 : List (RegEvent C D)} {name : Bytes} {c : Command C D} {ev : RegEvent C D}
    (hk : Kept ents h0 name c s) (hh : s'.history = s.history ++ [ev])
    (hm : ¬ Touches name ev → (name, c) ∈ ents s.reg → (name, c) ∈ ents s'.reg) : Kept ents h0 name c s' := by
  obtain ⟨h2, e, k⟩ := hk
  refine ⟨h2 ++ [ev], by rw [hh, e, List.append_assoc], fun hn => ?_⟩
  exact hm (hn ev (by simp)) (k fun ev' h' => hn ev' (List.mem_append_left _ h'))

theorem kept_preserved (laws : RegLaws ops ents) (h0 : List (RegEvent C D)) (name : Bytes) (c : Command C D) :
    Preserved ops (Kept (W := W) ents h0 name c) where
  user _ _ h := h
  calls _ _ h := h
  add s n fs s' hk h := by
    simp only [bindingsAdd, Res.bind_eq_ok, Res.ok.injEq] at h
    obtain ⟨old, h1, reg, h2, rfl⟩ := h
    refine hk.step rfl ?_
    intro hn hm
    cases old with
    | none => rw [laws.put_new h1 h2]; exact List.mem_append_left _ hm
    | some c0 =>
      obtain ⟨l1, l2, e1, e2⟩ := laws.put_old h1 h2
      rw [e1] at hm
      rw [e2]
      simp only [List.mem_append, List.mem_cons, Prod.mk.injEq] at hm ⊢
      rcases hm with h | ⟨h, _⟩ | h
      · exact .inl h
      · exact absurd h.symm hn
      · exact .inr (.inr h)
  remove s n s' hk h := by
    simp only [bindingsRemove, Res.bind_eq_ok, Res.ok.injEq] at h
    obtain ⟨old, h1, reg, h2, rfl⟩ := h
    refine hk.step rfl ?_
    intro hn hm
    cases old with
    | none => rw [laws.erase_missing h1 h2]; exact hm
    | some c0 =>
      rcases List.mem_cons.1 ((laws.erase_found h1 h2).mem_iff.1 hm) with h | h
      · simp only [Prod.mk.injEq] at h
        exact absurd h.1.symm hn
      · exact h
  clear s hk := hk.step rfl fun hn => absurd trivial hn

end Owned

/-! ## The dictionary of the history -/

section Dictionary

variable {W C D : Type}

theorem snoc_induction {α : Type} {p : List α → Prop} (nil : p []) (snoc : ∀ l a, p l → p (l ++ [a])) (l : List α) :
    p l := by
  suffices h : ∀ r : List α, p r.reverse by
    have := h l.reverse
    rwa [List.reverse_reverse] at this
  intro r
  induction r with
  | nil => exact nil
  | cons a r ih =>
    rw [List.reverse_cons]
    exact snoc _ _ ih

theorem dictAfter_concat {K V : Type} [DecidableEq K] (ops : List (DictOp K V)) (op : DictOp K V) :
    dictAfter (ops ++ [op]) = dictStep (dictAfter ops) op := by
  simp [dictAfter, List.foldl_append]

theorem registered_concat (h : List (RegEvent C D)) (ev : RegEvent C D) (name : Bytes) (fs : List (Inst C D)) :
    Registered (h ++ [ev]) name fs ↔ ev = .added name fs ∨ (¬ Touches name ev ∧ Registered h name fs) := by
  constructor
  · rintro ⟨h1, h2, e, hn⟩
    rcases List.eq_nil_or_concat h2 with rfl | ⟨h2', x, rfl⟩
    · have := List.append_inj' e rfl
      simp only [List.cons.injEq, and_true] at this
      exact .inl this.2
    · simp only [List.concat_eq_append] at e hn
      have e' : h ++ [ev] = (h1 ++ .added name fs :: h2') ++ [x] := by rw [e]; simp
      obtain ⟨rfl, e2⟩ := List.append_inj' e' rfl
      simp only [List.cons.injEq, and_true] at e2
      subst e2
      exact .inr ⟨hn ev (by simp), h1, h2', rfl, fun ev' h' => hn ev' (List.mem_append_left _ h')⟩
  · rintro (rfl | ⟨hn, h1, h2, rfl, h3⟩)
    · exact ⟨h, [], by simp, by simp⟩
    · refine ⟨h1, h2 ++ [ev], by simp, ?_⟩
      intro ev' h'
      rcases List.mem_append.1 h' with h' | h'
      · exact h3 _ h'
      · simp only [List.mem_singleton] at h'
        subst h'
        exact hn

/-- Looking a name up in the dictionary of the history. -/
theorem dictAfter_registered (h : List (RegEvent C D)) (name : Bytes) (c : Command C D) :
    dictAfter (h.map asDictOp) name = some c ↔ c.name = name ∧ Registered h name c.functors := by
  induction h using snoc_induction with
  | nil =>
    simp only [List.map_nil, dictAfter, List.foldl_nil, reduceCtorEq, false_iff, not_and]
    rintro _ ⟨h1, h2, e, _⟩
    simp at e
  | snoc h ev ih =>
    rw [List.map_append, List.map_cons, List.map_nil, dictAfter_concat, registered_concat]
    obtain ⟨cn, cf⟩ := c
    cases ev with
    | added n fs =>
      by_cases hn : name = n
      · subst hn
        simp [asDictOp, dictStep, Touches]
        exact fun _ => eq_comm
      · simp only [asDictOp, dictStep, if_neg hn, ih, RegEvent.added.injEq, Touches]
        constructor
        · rintro ⟨h1, h2⟩; exact ⟨h1, .inr ⟨fun e => hn e.symm, h2⟩⟩
        · rintro ⟨h1, ⟨h2, _⟩ | ⟨_, h2⟩⟩
          · exact absurd h2.symm hn
          · exact ⟨h1, h2⟩
    | removed n =>
      by_cases hn : name = n
      · subst hn
        simp [asDictOp, dictStep, Touches]
      · simp only [asDictOp, dictStep, if_neg hn, ih, Touches, reduceCtorEq, false_or]
        constructor
        · rintro ⟨h1, h2⟩; exact ⟨h1, fun e => hn e.symm, h2⟩
        · rintro ⟨h1, _, h2⟩; exact ⟨h1, h2⟩
    | cleared => simp [asDictOp, dictStep, Touches]

theorem dictAfter_missing (h : List (RegEvent C D)) (name : Bytes) :
    dictAfter (h.map asDictOp) name = none ↔ ∀ fs, ¬ Registered h name fs := by
  constructor
  · intro hn fs hr
    have := (dictAfter_registered h name ⟨name, fs⟩).2 ⟨rfl, hr⟩
    rw [hn] at this
    cases this
  · intro hn
    cases hd : dictAfter (h.map asDictOp) name with
    | none => rfl
    | some c => exact absurd ((dictAfter_registered h name c).1 hd).2 (hn _)

theorem runOps_concat {K V : Type} [DecidableEq K] {fixed : Bool} {hash : K → Nat} {exceeds : Nat → Nat → Bool}
    (m : UMap K V) (ops : List (DictOp K V)) (op : DictOp K V) :
    UMap.runOps fixed hash exceeds m (ops ++ [op]) =
      (UMap.runOps fixed hash exceeds m ops >>= fun m' => UMap.applyOp fixed hash exceeds m' op) := by
  induction ops generalizing m with
  | nil =>
    simp only [List.nil_append, UMap.runOps, Res.bind_ok]
    cases UMap.applyOp fixed hash exceeds m op <;> rfl
  | cons o ops ih =>
    simp only [List.cons_append, UMap.runOps]
    cases UMap.applyOp fixed hash exceeds m o with
    | ok m1 => simp only [Res.bind_ok]; exact ih m1
    | ub w => rfl
    | diverge => rfl

variable {fixed charSigned : Bool} {exceeds : Nat → Nat → Bool}

/-- The map is what the history makes of a new map. -/
def FollowsHistory (fixed charSigned : Bool) (exceeds : Nat → Nat → Bool)
    (s : Sys (UMap Bytes (Command C D)) W C D) : Prop :=
  mapAfter fixed (djb2 charSigned) exceeds 1 (s.history.map asDictOp) = .ok s.reg

theorem follows_step {s s' : Sys (UMap Bytes (Command C D)) W C D} {ev : RegEvent C D}
    (h : FollowsHistory fixed charSigned exceeds s) (hh : s'.history = s.history ++ [ev])
    (hr : UMap.applyOp fixed (djb2 charSigned) exceeds s.reg (asDictOp ev) = .ok s'.reg) :
    FollowsHistory fixed charSigned exceeds s' := by
  unfold FollowsHistory mapAfter at h ⊢
  rw [hh, List.map_append, List.map_cons, List.map_nil]
  obtain ⟨m0, h1, h2⟩ := Res.bind_eq_ok.1 h
  rw [h1, Res.bind_ok, runOps_concat, h2, Res.bind_ok, hr]

theorem follows_preserved :
    Preserved (mapOps fixed charSigned exceeds) (FollowsHistory (W := W) (C := C) (D := D) fixed charSigned exceeds) where
  user _ _ h := h
  calls _ _ h := h
  add s n fs s' hk h := by
    simp only [bindingsAdd, Res.bind_eq_ok, Res.ok.injEq] at h
    obtain ⟨old, h1, reg, h2, rfl⟩ := h
    exact follows_step hk rfl h2
  remove s n s' hk h := by
    simp only [bindingsRemove, Res.bind_eq_ok, Res.ok.injEq] at h
    obtain ⟨old, h1, reg, h2, rfl⟩ := h
    exact follows_step hk rfl h2
  clear s hk := follows_step hk rfl rfl

theorem safeFrom_prefix {K V : Type} [DecidableEq K] {a b : List (DictOp K V)} {ph : Phase} {l : List (K × V)}
    (h : SafeFrom ph l (a ++ b)) : SafeFrom ph l a := by
  induction a generalizing ph l with
  | nil => trivial
  | cons x a ih => exact ⟨h.1, ih h.2⟩

/-! ## Functions that leave the registry alone -/

theorem keeps_runs {S R : Type} {ops : RegOps S C D} {ne : Nested S W C D} {s s' : Sys S W C D}
    (hne : ∀ s req s' out, ne.exec s req = .ok (s', out) → s'.history = s.history ∧ s'.reg = s.reg)
    {self : Inst C D} {l : List Named} {past es : List CtxEvent} {p : Prog W C D R} {e : End R}
    (h : Runs ops ne self l past p s es e s') (hk : KeepsRegistry p) : s'.history = s.history ∧ s'.reg = s.reg := by
  induction h with
  | ret => exact ⟨rfl, rfl⟩
  | throw => exact ⟨rfl, rfl⟩
  | log _ ih => exact ih hk
  | logline _ ih => exact ih hk
  | reportError _ ih => exact ih hk
  | hasErrors _ ih => exact ih (hk _)
  | named _ ih => exact ih (hk _)
  | setNamed _ _ ih => exact ih hk
  | get _ ih => exact ih (hk _)
  | set _ ih => exact ih hk
  | captured _ _ ih => exact ih (hk _)
  | add => exact hk.elim
  | remove => exact hk.elim
  | clear => exact hk.elim
  | execLine h0 _ ih =>
    have h1 := hne _ (.line _) _ _ h0
    have h2 := ih (hk _)
    exact ⟨h2.1.trans h1.1, h2.2.trans h1.2⟩
  | execInput h0 _ ih =>
    have h1 := hne _ (.input _) _ _ h0
    have h2 := ih (hk _)
    exact ⟨h2.1.trans h1.1, h2.2.trans h1.2⟩

theorem keeps_exec {S : Type} {P : C → FunctorDef W C D} {ops : RegOps S C D} {catching : Bool}
    (hP : ∀ c xs, KeepsRegistry ((P c).body xs)) (fuel : Nat) :
    ∀ (depth : Nat) (s : Sys S W C D) (req : Request) (s' : Sys S W C D) (out : ExecOut),
      (nested P ops catching fuel depth).exec s req = .ok (s', out) → s'.history = s.history ∧ s'.reg = s.reg := by
  induction fuel with
  | zero =>
    intro depth s req s' out h
    obtain ⟨_, h, _⟩ := exec_ok h
    omega
  | succ fuel ih =>
    intro depth s req s' out h
    obtain ⟨f', hf, h⟩ := exec_ok h
    cases hf
    rcases h with ⟨_, _, _, _, _, _, rfl, _⟩ | ⟨i, _, h⟩
    · exact ⟨rfl, rfl⟩
    · rcases executeInput_cases h with ⟨_, rfl, _⟩ | ⟨_, _, rfl, _⟩ | ⟨_, _, _, _, rfl, _⟩ |
        ⟨_, _, _, _, _, _, _, _, rfl, _⟩ | ⟨_, _, f, _, _, _, _, _, _, _, hr, _⟩
      · exact ⟨rfl, rfl⟩
      · exact ⟨rfl, rfl⟩
      · exact ⟨rfl, rfl⟩
      · exact ⟨rfl, rfl⟩
      · have := keeps_runs (ih (depth + 1)) hr (hP _ _)
        exact this

end Dictionary

end Coil
