import Verif.Proofs.Independent
import Verif.Proofs.HeapMapProg
import Verif.Props.HeapMap

/-! # The containers that behave like a dictionary -/

namespace Coil
open Spec

variable {C D : Type}

theorem standing_snoc (h : List (RegEvent C D)) (ev : RegEvent C D) :
    standing (h ++ [ev]) = dictStep (standing h) (asDictOp ev) := by
  simp [standing, dictAfter]

/-! ## Lists -/

theorem Book.mem_without {b : Book C D} {k n : Bytes} {c : Command C D} : (n, c) ∈ b.without k ↔ (n, c) ∈ b ∧ n ≠ k := by
  induction b with
  | nil => simp [Book.without]
  | cons p b ih =>
    obtain ⟨n', c'⟩ := p
    simp only [Book.without]
    split
    · rename_i h
      subst h
      rw [ih]
      constructor
      · rintro ⟨h1, h2⟩; exact ⟨List.mem_cons_of_mem _ h1, h2⟩
      · rintro ⟨h1, h2⟩
        rcases List.mem_cons.1 h1 with h1 | h1
        · cases h1; exact absurd rfl h2
        · exact ⟨h1, h2⟩
    · rename_i h
      simp only [List.mem_cons, ih, Prod.mk.injEq]
      constructor
      · rintro (⟨rfl, rfl⟩ | ⟨h1, h2⟩)
        · exact ⟨.inl ⟨rfl, rfl⟩, h⟩
        · exact ⟨.inr h1, h2⟩
      · rintro ⟨h1 | h1, h2⟩
        · exact .inl h1
        · exact .inr ⟨h1, h2⟩

theorem Book.get_iff {b : Book C D} {d : Bytes → Option (Command C D)} (hd : ∀ n c, (n, c) ∈ b ↔ d n = some c) (n : Bytes) :
    b.get n = d n := by
  have h1 : ∀ {b : Book C D} {c}, b.get n = some c → (n, c) ∈ b := by
    intro b
    induction b with
    | nil => intro c h; cases h
    | cons p b ih =>
      obtain ⟨n', c'⟩ := p
      intro c h
      simp only [Book.get] at h
      split at h
      · rename_i e; subst e; cases h; simp
      · exact List.mem_cons_of_mem _ (ih h)
  have h2 : ∀ {b : Book C D}, b.get n = none → ∀ c, (n, c) ∉ b := by
    intro b
    induction b with
    | nil => intro _ c h; cases h
    | cons p b ih =>
      obtain ⟨n', c'⟩ := p
      intro h c hm
      simp only [Book.get] at h
      split at h
      · cases h
      · rename_i e
        rcases List.mem_cons.1 hm with hm | hm
        · cases hm; exact e rfl
        · exact ih h c hm
  cases hg : b.get n with
  | some c => exact ((hd n c).1 (h1 hg)).symm
  | none =>
    cases hx : d n with
    | none => rfl
    | some c => exact absurd ((hd n c).2 hx) (h2 hg c)

/-- The list has the commands of the history. -/
def BookAfter (h : List (RegEvent C D)) (b : Book C D) : Prop := ∀ n c, (n, c) ∈ b ↔ standing h n = some c

theorem book_implements (Safe : List (RegEvent C D) → Prop) : Implements Safe (bookOps (C := C) (D := D)) BookAfter where
  find hi _ k := by simp only [bookOps, Book.get_iff hi k]
  put n fs hi _ := by
    refine ⟨_, rfl, ?_⟩
    intro k c
    rw [standing_snoc]
    simp only [List.mem_cons, Prod.mk.injEq, Book.mem_without, hi k c, asDictOp, dictStep]
    split
    · rename_i e; subst e; simp; exact eq_comm
    · rename_i e; simp [e]
  erase n hi _ := by
    refine ⟨_, rfl, ?_⟩
    intro k c
    rw [standing_snoc, Book.mem_without, hi k c]
    simp only [asDictOp, dictStep]
    split
    · rename_i e; simp [e]
    · rename_i e; simp [e]
  clear _ _ := by
    intro k c
    rw [standing_snoc]
    simp [bookOps, asDictOp, dictStep]
  all {h b} hi _ id := by
    simp only [bookOps, List.mem_flatMap, List.mem_map]
    constructor
    · rintro ⟨c, ⟨⟨n, c'⟩, h1, rfl⟩, h2⟩
      exact ⟨n, c', (hi n c').1 h1, h2⟩
    · rintro ⟨n, c, h1, h2⟩
      exact ⟨c, ⟨(n, c), (hi n c).2 h1, rfl⟩, h2⟩

/-! ## The hash map -/

theorem mapAfter_snoc {fixed : Bool} {hash : Bytes → Nat} {exceeds : Nat → Nat → Bool} {h : List (RegEvent C D)}
    {m : UMap Bytes (Command C D)} (hm : mapAfter fixed hash exceeds 1 (h.map asDictOp) = .ok m) (ev : RegEvent C D) :
    mapAfter fixed hash exceeds 1 ((h ++ [ev]).map asDictOp) = UMap.applyOp fixed hash exceeds m (asDictOp ev) := by
  unfold mapAfter at hm ⊢
  obtain ⟨m0, h1, h2⟩ := Res.bind_eq_ok.1 hm
  rw [h1, Res.bind_ok, List.map_append, List.map_cons, List.map_nil, runOps_concat, h2, Res.bind_ok]

/-- The map of the history. -/
def MapOf (fixed : Bool) (hash : Bytes → Nat) (exceeds : Nat → Nat → Bool) (h : List (RegEvent C D)) (m : UMap Bytes (Command C D)) : Prop :=
  mapAfter fixed hash exceeds 1 (h.map asDictOp) = .ok m

/-- The histories that the map handles correctly (C24). -/
def Handled (fixed : Bool) (h : List (RegEvent C D)) : Prop := fixed = true ∨ SafeHistory h

theorem handled_prefix {fixed : Bool} (a b : List (RegEvent C D)) (h : Handled fixed (a ++ b)) : Handled fixed a := by
  rcases h with h | h
  · exact .inl h
  · refine .inr ?_
    unfold SafeHistory at h ⊢
    rw [List.map_append] at h
    exact safeFrom_prefix h

theorem MapOf.behaves {fixed : Bool} {hash : Bytes → Nat} {exceeds : Nat → Nat → Bool} (hex : ∀ b, 0 < b → exceeds 1 b = false)
    {h : List (RegEvent C D)} {m : UMap Bytes (Command C D)} (hm : MapOf fixed hash exceeds h m) (hs : Handled fixed h) :
    BehavesLike hash m (h.map asDictOp) := by
  obtain ⟨m', g1, _, g2, _⟩ := mapAfter_spec hex (buckets := 1) (by omega) (hash := hash) (h.map asDictOp) hs
  rw [hm] at g1
  cases g1
  exact g2

theorem MapOf.step {fixed : Bool} {hash : Bytes → Nat} {exceeds : Nat → Nat → Bool} (hex : ∀ b, 0 < b → exceeds 1 b = false)
    {h : List (RegEvent C D)} {m : UMap Bytes (Command C D)} (hm : MapOf fixed hash exceeds h m) (ev : RegEvent C D)
    (hs : Handled fixed (h ++ [ev])) :
    ∃ m', UMap.applyOp fixed hash exceeds m (asDictOp ev) = .ok m' ∧ MapOf fixed hash exceeds (h ++ [ev]) m' := by
  obtain ⟨m', g1, _⟩ := mapAfter_spec hex (buckets := 1) (by omega) (hash := hash) ((h ++ [ev]).map asDictOp) hs
  refine ⟨m', ?_, g1⟩
  rw [← mapAfter_snoc hm ev]
  exact g1

theorem ids_iff {l : List (Bytes × Command C D)} {d : Bytes → Option (Command C D)} (h : Lists l d) (id : Nat) :
    id ∈ (l.map Prod.snd).flatMap Command.ids ↔ ∃ k c, d k = some c ∧ id ∈ c.ids := by
  simp only [List.mem_flatMap, List.mem_map]
  constructor
  · rintro ⟨c, ⟨⟨n, c'⟩, h1, rfl⟩, h2⟩
    exact ⟨n, c', (h.2 n c').1 h1, h2⟩
  · rintro ⟨n, c, h1, h2⟩
    exact ⟨c, ⟨(n, c), (h.2 n c).2 h1, rfl⟩, h2⟩

theorem map_implements {fixed charSigned : Bool} {exceeds : Nat → Nat → Bool} (hex : ∀ b, 0 < b → exceeds 1 b = false) :
    Implements (Handled fixed) (mapOps (C := C) (D := D) fixed charSigned exceeds) (MapOf fixed (djb2 charSigned) exceeds) where
  find hi hs k := (hi.behaves hex hs).1 k
  put n fs hi hs := hi.step hex (.added n fs) hs
  erase n hi hs := hi.step hex (.removed n) hs
  clear hi hs := by
    obtain ⟨m', h1, h2⟩ := hi.step hex .cleared hs
    cases h1
    exact h2
  all hi hs id := ids_iff (hi.behaves hex hs).2.1 id

/-! ## The hash map on heaps -/

/-- The heaps hold the map of the history. -/
def HeapOf (c : HMap.Cfg Bytes (Command C D)) (h : List (RegEvent C D)) (s : HMap.HState Bytes (Command C D)) : Prop :=
  ∃ m, MapOf c.fixed c.hash c.exceeds h m ∧ HMap.Rel c s [some m] ∧ m.nodes.length ≤ h.length

/-- The histories that the map handles correctly, if their sizes are representable. -/
def HeapHandled (c : HMap.Cfg Bytes (Command C D)) (h : List (RegEvent C D)) : Prop :=
  Handled c.fixed h ∧ 3 * (h.length + 1) * c.nodeSize < 2 ^ 64 ∧ h.length * 2 * c.indexSize < 2 ^ 64

theorem heapHandled_prefix {c : HMap.Cfg Bytes (Command C D)} (a b : List (RegEvent C D)) (h : HeapHandled c (a ++ b)) : HeapHandled c a := by
  obtain ⟨h1, h2, h3⟩ := h
  rw [List.length_append] at h2 h3
  refine ⟨handled_prefix a b h1, Nat.lt_of_le_of_lt ?_ h2, Nat.lt_of_le_of_lt ?_ h3⟩
  · exact Nat.mul_le_mul_right _ (by omega)
  · exact Nat.mul_le_mul_right _ (by omega)

section
variable {c : HMap.Cfg Bytes (Command C D)}

theorem HeapOf.step (hex : ∀ b, 0 < b → c.exceeds 1 b = false) (hN : 0 < c.nodeSize) (hB : 0 < c.indexSize) {h : List (RegEvent C D)}
    {s : HMap.HState Bytes (Command C D)} (hi : HeapOf c h s) (ev : RegEvent C D) (hs : HeapHandled c (h ++ [ev])) :
    ∃ s', HMap.step c s (.on 0 (asDictOp ev)) = .ok s' ∧ HeapOf c (h ++ [ev]) s' := by
  obtain ⟨m, h1, h2, h3⟩ := hi
  obtain ⟨m', g1, g2⟩ := h1.step hex ev hs.1
  have hf := (heapHandled_prefix _ _ hs).2
  have hsim := HMap.step_prog_sim hN hB h2 (op := .on 0 (asDictOp ev)) (by
    cases ev with
    | added n fs =>
      intro m0 hm0
      cases hm0
      exact ⟨Nat.lt_of_le_of_lt (Nat.mul_le_mul_right _ (by omega)) hf.1, Nat.lt_of_le_of_lt (Nat.mul_le_mul_right _ (by omega)) hf.2⟩
    | removed n => trivial
    | cleared => trivial)
  have e : HMap.lstep c [some m] (.on 0 (asDictOp ev)) = .ok [some m'] := by
    simp only [HMap.lstep, HMap.liveMap, List.getElem?_cons_zero, Res.bind_ok, g1]
    rfl
  rw [e] at hsim
  obtain ⟨s', k1, k2⟩ := hsim.ok_right
  refine ⟨s', k1, m', g2, k2, ?_⟩
  have := HMap.applyOp_length g1
  simp only [List.length_append, List.length_cons, List.length_nil]
  omega

theorem heap_implements (hex : ∀ b, 0 < b → c.exceeds 1 b = false) (hN : 0 < c.nodeSize) (hB : 0 < c.indexSize) :
    Implements (HeapHandled c) (heapOps c) (HeapOf c) where
  find {h s} hi hs k := by
    obtain ⟨m, h1, h2, _⟩ := hi
    have hsim := HMap.find_sim h2 (v := 0) (m := m) rfl k
    rw [(h1.behaves hex hs.1).1 k] at hsim
    obtain ⟨_, a1, rfl⟩ := hsim.ok_right
    exact a1
  put n fs hi hs := hi.step hex hN hB (.added n fs) hs
  erase n hi hs := hi.step hex hN hB (.removed n) hs
  clear hi hs := by
    obtain ⟨s', h1, h2⟩ := hi.step hex hN hB .cleared hs
    have h1 : HMap.clear c _ 0 = .ok s' := h1
    simp only [heapOps, h1]
    exact h2
  all {h s} hi hs id := by
    obtain ⟨m, h1, h2, _⟩ := hi
    simp only [heapOps, HMap.iterate_eq h2 (v := 0) (m := m) rfl]
    exact ids_iff (h1.behaves hex hs.1).2.1 id

theorem heap_made (hN : 0 < c.nodeSize) (hB : 0 < c.indexSize) (hs : c.indexSize < 2 ^ 64) :
    ∃ s, heapMade c = .ok s ∧ HeapOf c [] s := by
  obtain ⟨m, h1, _, h2⟩ := UMap.create_spec (V := Command C D) c.hash (n := 1) (by omega)
  have hsim := HMap.step_prog_sim hN hB (HMap.rel_start (c := c)) (op := .create 1) (show 1 * c.indexSize < 2 ^ 64 by omega)
  have e : HMap.lstep c [] (.create 1) = .ok [some m] := by
    simp only [HMap.lstep, h1, Res.bind_ok]
    rfl
  rw [e] at hsim
  obtain ⟨s', k1, k2⟩ := hsim.ok_right
  refine ⟨s', k1, m, ?_, k2, ?_⟩
  · simp only [MapOf, mapAfter, h1, Res.bind_ok, List.map_nil, UMap.runOps]
  · have : m.entries.length = 0 := by rw [h2]; rfl
    rw [UMap.entries_length] at this
    simp [this]

end
end Coil
