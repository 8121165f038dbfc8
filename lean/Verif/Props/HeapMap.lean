import Verif.Proofs.MapRefs
import Verif.Props.UMap

/-!
# Properties of maps whose vectors live on the heap (C82, C83)

A program is a list of statements on any number of maps (`Spec.MapOp`); `HMap.run` executes it on two heaps, one for the
vectors of nodes and one for the vectors of buckets. What a program should do is `Spec.mapsRun`, and where entries should
be is `Spec.placesRun`.
-/

namespace Coil
open Spec HMap

variable {K V : Type} [DecidableEq K]

/-- What one can see of a map: a dead one cannot be used, one without buckets is empty and cannot be searched, and any
other has exactly its entries. -/
def ShowsMap (c : Cfg K V) (h : HState K V) (v : Nat) : Option (Content K V) → Prop
  | none => (∃ u, iterate h v = .ub u) ∧ ∀ k, ∃ u, find c h v k = .ub u
  | some none => iterate h v = .ok [] ∧ ∀ k, find c h v k = .ub .divByZero
  | some (some (_, l)) => iterate h v = .ok l ∧ sizeVar h.nodes v = .ok l.length ∧ ∀ k, find c h v k = .ok (lookup l k)

/-- The assumptions on a map type and a program: objects have a size, one entry never exceeds the load factor, all sizes are
representable, and either `erase` is repaired or all removals are allowed (`Spec.Allowed`, see C24). The theorems with
the suffix `_partial` have this assumption; missing are programs on the code as it is with other removals, for which C82
is false (`C82_false`). -/
structure Usable (c : Cfg K V) (prog : List (MapOp K V)) : Prop where
  nodeSize : 0 < c.nodeSize
  indexSize : 0 < c.indexSize
  load : ∀ b, 0 < b → c.exceeds 1 b = false
  fit : MapsFit c.nodeSize c.indexSize prog
  safe : c.fixed = true ∨ MapsSafe [] prog

theorem Usable.run {c : Cfg K V} {prog : List (MapOp K V)} (u : Usable c prog) {e : Maps K V} (hm : mapsRun [] prog = some e) :
    ∃ h ms, HMap.run c start prog = .ok h ∧ Rel c h ms ∧ Holding c ms e ∧ shape h.nodes = placesRun [] noPlaces prog :=
  run_shape u.nodeSize u.indexSize u.load rel_start holding_nil (n := 0) (by intro m hm; cases hm) prog
    (by simpa using u.fit.1) (by simpa using u.fit.2.1) u.fit.2.2 u.safe hm

theorem prog_sim {c : Cfg K V} (hN : 0 < c.nodeSize) (hB : 0 < c.indexSize) {prog : List (MapOp K V)}
    (hf : MapsFit c.nodeSize c.indexSize prog) : Sim (Rel c) (run c start prog) (lrun c [] prog) :=
  run_prog_sim hN hB rel_start (n := 0) (by intro m hm; cases hm) prog (by simpa using hf.1) (by simpa using hf.2.1) hf.2.2

/-! ## C82 -/

/-- The state has the contents. -/
def Represents (c : Cfg K V) (h : HState K V) (e : Maps K V) : Prop := ∃ ms, Rel c h ms ∧ Holding c ms e

theorem shows_at {c : Cfg K V} {h : HState K V} {ms : Lmaps K V} (r : Rel c h ms) {v : Nat} {x : Option (Content K V)}
    (hx : match x with
      | none => (ms[v]?).join = none
      | some y => ∃ m, ms[v]? = some (some m) ∧ Holds c m y) : ShowsMap c h v x := by
  cases x with
  | none =>
    have hd := r.nodes.getDead (seqOf_dead (f := UMap.nodes) hx)
    have hd' := r.buckets.getDead (seqOf_dead (f := UMap.buckets) hx)
    refine ⟨⟨_, by simp only [iterate, sizeVar, hd, Res.bind_ub]; rfl⟩, fun k => ⟨.deadObject, ?_⟩⟩
    simp only [find, findIndex, bucketOf, sizeVar, hd', Res.bind_ub]
  | some x =>
    obtain ⟨m, g1, g4⟩ := hx
    cases x with
    | none =>
      cases g4
      refine ⟨by rw [iterate_eq r g1]; rfl, fun k => ?_⟩
      simp only [find, findIndex, bucketOf_eq r g1]
      rfl
    | some p =>
      obtain ⟨ph, l⟩ := p
      obtain ⟨good, hent, hnd⟩ := g4
      subst hent
      refine ⟨iterate_eq r g1, by rw [nodesSize_eq r g1]; simp [UMap.entries], fun k => ?_⟩
      have hsim := find_sim r g1 k
      rw [UMap.find_spec good.wf (lists_lookup hnd) k] at hsim
      obtain ⟨_, a1, rfl⟩ := hsim.ok_right
      exact a1

omit [DecidableEq K] in
theorem holding_at {c : Cfg K V} {ms : Lmaps K V} {e : Maps K V} (hh : Holding c ms e) (v : Nat) :
    match contentOf e v with
    | none => (ms[v]?).join = none
    | some y => ∃ m, ms[v]? = some (some m) ∧ Holds c m y := by
  cases hc : contentOf e v with
  | none => exact (hh.dead hc).1
  | some x =>
    obtain ⟨m, g1, _, _, g4⟩ := hh.live hc
    exact ⟨m, g1, g4⟩

theorem Represents.shows {c : Cfg K V} {h : HState K V} {e : Maps K V} (hr : Represents c h e) (v : Nat) :
    ShowsMap c h v (contentOf e v) := by
  obtain ⟨ms, r, hh⟩ := hr
  exact shows_at r (holding_at hh v)

/-- **C82 (behaviour).** A program on maps whose statements are meaningful runs without undefined behaviour and leaves every
map with the specified entries in the specified order. For the code as it is (`fixed = false`) removals must be allowed. -/
theorem C82_maps_partial {c : Cfg K V} {prog : List (MapOp K V)} (u : Usable c prog) {e : Maps K V} (hm : mapsRun [] prog = some e) :
    ∃ h, run c start prog = .ok h ∧ ∀ v, ShowsMap c h v (contentOf e v) := by
  obtain ⟨h, ms, h1, r, hh, _⟩ := u.run hm
  exact ⟨h, h1, Represents.shows ⟨ms, r, hh⟩⟩

/-- **C82 (misuse).** A program with a meaningless statement (a map that is not live, or putting into or erasing from a map
without buckets) has undefined behaviour. -/
theorem C82_misuse_partial {c : Cfg K V} {prog : List (MapOp K V)} (u : Usable c prog) (hm : mapsRun [] prog = none) :
    ∃ w, run c start prog = .ub w := by
  have h1 := lrun_spec u.load (holding_nil (c := c)) prog u.safe
  rw [hm] at h1
  obtain ⟨w, hw⟩ := h1
  have hs := prog_sim u.nodeSize u.indexSize u.fit
  rw [hw] at hs
  cases hr : run c start prog with
  | ok h => rw [hr] at hs; exact hs.elim
  | ub w' => exact ⟨w', rfl⟩
  | diverge => rw [hr] at hs; exact hs.elim

/-- **C82 (refinement).** Every program of representable size, whether removals are allowed or not, ends on heaps in the same
way as on lists (`Model/UMap.lean`), and then all maps have the same entries and answer look-ups alike. So what C24 and
C25 say about the map on lists, good or bad, holds for the map on heaps. -/
theorem C82_refines {c : Cfg K V} (hN : 0 < c.nodeSize) (hB : 0 < c.indexSize) {prog : List (MapOp K V)}
    (hf : MapsFit c.nodeSize c.indexSize prog) :
    Sim (fun h ms => ∀ v m, ms[v]? = some (some m) →
        iterate h v = .ok m.entries ∧ ∀ k, Sim Eq (find c h v k) (UMap.find c.hash m k))
      (run c start prog) (lrun c [] prog) :=
  (prog_sim hN hB hf).imp (fun _ _ _ _ r _ _ hv => ⟨iterate_eq r hv, fun k => find_sim r hv k⟩)

/-- The number of elements of all live vectors. -/
def elements {α : Type} (s : Vec.State α) : Nat := (s.vars.map (fun o => (o.map Buf.size).getD 0)).sum

/-- Every allocated block belongs to exactly one live vector, and constructed minus destroyed objects are the elements. -/
def Accounted {α : Type} (s : Vec.State α) : Prop :=
  s.mem.ctors = s.mem.dtors + elements s ∧
  (∀ b cells, s.mem.heap[b]? = some (some cells) → ∃ (v : Nat) (buf : Buf), s.vars[v]? = some (some buf) ∧ buf.ptr = some b) ∧
  ∀ (v w : Nat) (bv bw : Buf) (b : Nat), s.vars[v]? = some (some bv) → s.vars[w]? = some (some bw) → bv.ptr = some b → bw.ptr = some b → v = w

theorem accounted_of {α : Type} {sz : Nat} {s : Vec.State α} {e : Seqs α} (h : Vec.Inv sz s e) : Accounted s :=
  ⟨by rw [h.count, total_sizes h]; rfl, fun b c hb => h.live b c hb, h.dist⟩

/-- **C82 (no leaks).** After every program of representable size that ends, even one with removals that are not allowed, no
node and no block is leaked, shared or destroyed twice. -/
theorem C82_accounting {c : Cfg K V} (hN : 0 < c.nodeSize) (hB : 0 < c.indexSize) {prog : List (MapOp K V)}
    (hf : MapsFit c.nodeSize c.indexSize prog) {h : HState K V} (hr : run c start prog = .ok h) :
    Accounted h.nodes ∧ Accounted h.buckets := by
  have hs := prog_sim hN hB hf
  rw [hr] at hs
  obtain ⟨ms, _, r⟩ := hs.ok_left
  exact ⟨accounted_of r.nodes, accounted_of r.buckets⟩

theorem sum_zero {l : List Nat} (h : ∀ x ∈ l, x = 0) : l.sum = 0 := by
  induction l with
  | nil => rfl
  | cons a l ih =>
    simp only [List.sum_cons, h a (by simp), ih (fun x hx => h x (by simp [hx]))]

/-- **C82 (at the end).** If all maps are destroyed at the end, every node was destroyed and every block freed. -/
theorem C82_all_destroyed_partial {c : Cfg K V} {prog : List (MapOp K V)} (u : Usable c prog) {e : Maps K V}
    (hm : mapsRun [] prog = some e) (hd : ∀ o ∈ e, o = none) :
    ∃ h, run c start prog = .ok h ∧ h.nodes.mem.ctors = h.nodes.mem.dtors ∧ h.buckets.mem.ctors = h.buckets.mem.dtors ∧
      (∀ o ∈ h.nodes.mem.heap, o = none) ∧ ∀ o ∈ h.buckets.mem.heap, o = none := by
  obtain ⟨h, ms, h1, r, hh, _⟩ := u.run hm
  obtain ⟨a, b⟩ := C82_accounting u.nodeSize u.indexSize u.fit h1
  have dead : ∀ {α : Type} {sz : Nat} {s : Vec.State α} {f : UMap K V → List α}, Vec.Inv sz s (ms.map (·.map f)) →
      ∀ (v : Nat) (buf : Buf), s.vars[v]? ≠ some (some buf) := by
    intro α sz s f hi v buf hv
    obtain ⟨l, g1, _⟩ := hi.own v buf hv
    obtain ⟨m, g2, _⟩ := liveVar g1
    have hl : v < e.length := by rw [← hh.len]; exact (List.getElem?_eq_some_iff.1 g2).1
    have := hh.at_ v _ e[v] g2 (by simp [hl])
    rw [hd e[v] (List.getElem_mem hl)] at this
    exact this
  have fin : ∀ {α : Type} {s : Vec.State α}, Accounted s → (∀ (v : Nat) (buf : Buf), s.vars[v]? ≠ some (some buf)) →
      s.mem.ctors = s.mem.dtors ∧ ∀ o ∈ s.mem.heap, o = none := by
    intro α s ha hs
    constructor
    · have h0 : elements s = 0 := by
        unfold elements
        apply sum_zero
        intro x hx
        obtain ⟨o, ho, rfl⟩ := List.mem_map.1 hx
        cases o with
        | none => rfl
        | some buf =>
          obtain ⟨v, hv⟩ := List.mem_iff_getElem?.1 ho
          exact absurd hv (hs v buf)
      have := ha.1
      omega
    · intro o ho
      cases o with
      | none => rfl
      | some cells =>
        obtain ⟨b, hb⟩ := List.mem_iff_getElem?.1 ho
        obtain ⟨v, buf, hv, _⟩ := ha.2.1 b cells hb
        exact absurd hv (hs v buf)
  have n := fin a (dead r.nodes)
  have m := fin b (dead r.buckets)
  exact ⟨h, h1, n.1, m.1, n.2, m.2⟩

/-- The map of command names, with nodes of 64 bytes. -/
def nameMap (fixed : Bool) : Cfg Bytes Nat := ⟨djb2 true, overOne, fixed, 64, 8, fun _ => [], fun _ => 0, ⟨[], 0, none, none, none⟩⟩

/-- Two maps: entries are added, one map is copied, one moved, entries are removed, everything is destroyed. -/
def demoMaps : List (MapOp Bytes Nat) :=
  [.create 1, .on 0 (.put (lit "a") 1), .on 0 (.put (lit "b") 2), .on 0 (.put (lit "c") 3), .copyNew 0,
   .on 0 (.erase (lit "a")), .moveNew 0, .on 1 (.put (lit "d") 4), .moveAssign 0 1, .copyAssign 2 0]

example : Usable (nameMap true) demoMaps := by
  refine ⟨by decide, by decide, ?_, ?_, .inl rfl⟩
  · intro b hb
    simp [nameMap, overOne]
    omega
  · refine ⟨by decide, by decide, ?_⟩
    intro n hn
    simp [demoMaps] at hn
    subst hn
    decide

/-- What the maps hold at the end: the first the copy with the entry added later, the second nothing and no buckets. -/
example : (mapsRun [] demoMaps).map (fun e => (entriesOf e 0, entriesOf e 2, (contentOf e 1).map Option.isSome)) =
    some ([(lit "a", 1), (lit "b", 2), (lit "c", 3), (lit "d", 4)], [(lit "a", 1), (lit "b", 2), (lit "c", 3), (lit "d", 4)],
      some false) := by decide +kernel

example : ((run (nameMap false) start demoMaps).bind (fun h => (iterate h 2).bind (fun l =>
      .ok (l, h.nodes.mem.heap.length, h.nodes.mem.ctors, h.nodes.mem.dtors)))) =
    .ok ([(lit "a", 1), (lit "b", 2), (lit "c", 3), (lit "d", 4)], 6, 17, 9) := by decide +kernel

/-- Putting into a moved-from map divides by the number of buckets, which is 0. -/
example : run (nameMap true) start [.create 1, .moveNew 0, .on 0 (.put (lit "a") 1)] = .ub .divByZero := by decide +kernel

/-- **C82 is false of the code** without the condition on removals: the fault of C25 on heaps. -/
theorem C82_false : ∃ prog e, MapsFit 64 8 prog ∧ mapsRun [] prog = some e ∧ run (nameMap false) start prog = .ub .deadObject := by
  refine ⟨[.create 1, .on 0 (.put (lit "a") 1), .on 0 (.put (lit "e") 2), .on 0 (.put (lit "i") 3), .on 0 (.put (lit "m") 4),
    .on 0 (.erase (lit "a")), .on 0 (.erase (lit "e")), .on 0 (.erase (lit "m"))], _, ?_, rfl, by decide +kernel⟩
  refine ⟨by decide, by decide, ?_⟩
  intro n hn
  simp at hn
  subst hn
  decide

/-! ## C83 -/

/-- **C83 (what a reference refers to).** After a program, a reference into block `b` that belongs to a live map reads that
map's entry with its index; with another index, or into any other block, using it is undefined. -/
theorem C83_references_partial {c : Cfg K V} {prog : List (MapOp K V)} (u : Usable c prog) {e : Maps K V} (hm : mapsRun [] prog = some e) :
    ∃ h, run c start prog = .ok h ∧
      (∀ v b cap i, placeOf (placesRun [] noPlaces prog) v = some (some b, cap) →
        match (entriesOf e v)[i]? with
        | some y => Ref.get h ⟨b, i⟩ = .ok y
        | none => ∃ w, Ref.get h ⟨b, i⟩ = .ub w) ∧
      ∀ b i, (∀ v cap, placeOf (placesRun [] noPlaces prog) v ≠ some (some b, cap)) → ∃ w, Ref.get h ⟨b, i⟩ = .ub w := by
  obtain ⟨h, ms, h1, r, hh, hp⟩ := u.run hm
  rw [← hp]
  exact ⟨h, h1, fun v b cap i hv => get_of_place r hh hv i, fun b i hb => get_of_no_place r hb i⟩

/-- **C83 (what `find` returns).** A reference to the entry with the key, which reads the key and its value; `end()` if there
is none. -/
theorem C83_find_partial {c : Cfg K V} {prog : List (MapOp K V)} (u : Usable c prog) {e : Maps K V} (hm : mapsRun [] prog = some e)
    {v : Nat} {ph : Phase} {l : List (K × V)} (hv : contentOf e v = some (some (ph, l))) :
    ∃ h, run c start prog = .ok h ∧
      (∀ i k x, l[i]? = some (k, x) → ∃ b cap, placeOf (placesRun [] noPlaces prog) v = some (some b, cap) ∧
        findRef c h v k = .ok (some ⟨b, i⟩) ∧ Ref.get h ⟨b, i⟩ = .ok (k, x)) ∧
      ∀ k, k ∉ l.map Prod.fst → findRef c h v k = .ok none := by
  obtain ⟨h, ms, h1, r, hh, hp⟩ := u.run hm
  rw [← hp]
  refine ⟨h, h1, ?_, fun k hk => findRef_none r hh hv hk⟩
  intro i k x hi
  obtain ⟨b, cap, g1, g2⟩ := findRef_at r hh hv hi
  refine ⟨b, cap, g1, g2, ?_⟩
  have := get_of_place r hh g1 i
  simp only [entriesOf, hv, Option.getD_some, Content.entries, hi] at this
  exact this

/-- **C83 (dangling references stay dangling).** A block that was allocated and belongs to no map any more never comes back:
a reference into it is undefined after any continuation of the program. -/
theorem C83_dangling_forever_partial {c : Cfg K V} {prog more : List (MapOp K V)} (u : Usable c (prog ++ more)) {e e' : Maps K V}
    (hm : mapsRun [] prog = some e) (hm' : mapsRun [] (prog ++ more) = some e') {b : Nat}
    (hb : b < (placesRun [] noPlaces prog).next) (hg : ∀ v cap, placeOf (placesRun [] noPlaces prog) v ≠ some (some b, cap)) :
    ∃ h, run c start (prog ++ more) = .ok h ∧ ∀ i, ∃ w, Ref.get h ⟨b, i⟩ = .ub w := by
  obtain ⟨h, h1, _, h3⟩ := C83_references_partial u hm'
  refine ⟨h, h1, fun i => h3 b i ?_⟩
  rw [placesRun_append prog more hm]
  exact (gone_run more ⟨hb, hg⟩).2

theorem Usable.left {c : Cfg K V} {prog more : List (MapOp K V)} (u : Usable c (prog ++ more)) : Usable c prog := by
  refine ⟨u.nodeSize, u.indexSize, u.load, ⟨?_, ?_, fun n hn => u.fit.2.2 n (List.mem_append_left _ hn)⟩, ?_⟩
  · refine Nat.lt_of_le_of_lt (Nat.mul_le_mul_right _ ?_) u.fit.1
    rw [List.length_append]
    omega
  · refine Nat.lt_of_le_of_lt (Nat.mul_le_mul_right _ ?_) u.fit.2.1
    rw [List.length_append]
    omega
  · refine u.safe.imp id ?_
    have : ∀ (a : List (MapOp K V)) (e : Maps K V), MapsSafe e (a ++ more) → MapsSafe e a := by
      intro a
      induction a with
      | nil => intro _ _; trivial
      | cons op a ih => intro e hs; exact ⟨hs.1, fun e' he => ih e' (hs.2 e' he)⟩
    exact this prog []

theorem place_after {prog : List (MapOp K V)} {op : MapOp K V} {e e' : Maps K V} (hm : mapsRun [] prog = some e)
    (hs : mapsStep e op = some e') : mapsRun [] (prog ++ [op]) = some e' ∧
      placesRun [] noPlaces (prog ++ [op]) = placesStep e (placesRun [] noPlaces prog) op := by
  constructor
  · rw [mapsRun_append, hm]
    simp [mapsRun, hs]
  · rw [placesRun_append prog [op] hm]
    simp [placesRun, hs]

/-- The map a statement changes, unless it moves. -/
def targetOf : MapOp K V → Option Nat
  | .copyAssign dst _ => some dst
  | .on v _ => some v
  | .destroy v => some v
  | _ => none

/-- **C83 (moving).** Moving a map, by construction or assignment, leaves every reference as it was: those into the block of
the moved map now refer to entries of the new owner. -/
theorem C83_moves {c : Cfg K V} {prog : List (MapOp K V)} {op : MapOp K V} (hop : (∃ s, op = .moveNew s) ∨ ∃ d s, op = .moveAssign d s)
    {h h' : HState K V} (h1 : run c start prog = .ok h) (h2 : run c start (prog ++ [op]) = .ok h') (r : Ref) :
    Ref.get h' r = Ref.get h r := by
  rw [HMap.run_append, h1] at h2
  simp only [Res.bind_ok, run] at h2
  obtain ⟨h3, h2, h4⟩ := Res.bind_eq_ok.1 h2
  cases h4
  have : h'.nodes.mem = h.nodes.mem := by
    have key : ∀ o : Vec.Op (UNode K V), ((∃ s, o = .moveNew s) ∨ ∃ d s, o = .moveAssign d s) → ∀ {ob : Vec.Op (Option Nat)},
        (onBuckets c h ob >>= fun g => onNodes c g o) = .ok h' → h'.nodes.mem = h.nodes.mem := by
      intro o ho ob e
      obtain ⟨g, e1, e2⟩ := Res.bind_eq_ok.1 e
      have hg : g.nodes = h.nodes := by
        unfold onBuckets at e1
        obtain ⟨_, _, e1⟩ := Res.bind_eq_ok.1 e1
        cases e1
        rfl
      unfold onNodes at e2
      rw [hg] at e2
      obtain ⟨s, e3, e2⟩ := Res.bind_eq_ok.1 e2
      cases e2
      rcases ho with ⟨_, rfl⟩ | ⟨_, _, rfl⟩
      · simp only [Vec.step] at e3
        obtain ⟨_, _, e3⟩ := Res.bind_eq_ok.1 e3
        cases e3
        rfl
      · simp only [Vec.step] at e3
        obtain ⟨_, _, e3⟩ := Res.bind_eq_ok.1 e3
        obtain ⟨_, _, e3⟩ := Res.bind_eq_ok.1 e3
        cases e3
        rfl
    rcases hop with ⟨s, rfl⟩ | ⟨d, s, rfl⟩
    · exact key _ (.inl ⟨s, rfl⟩) h2
    · exact key _ (.inr ⟨d, s, rfl⟩) h2
  unfold Ref.get
  rw [this]

/-- **C83 (other maps).** A statement that neither moves nor has map `v` as its target leaves every reference into map `v` as
it was. -/
theorem C83_other_maps_partial {c : Cfg K V} {prog : List (MapOp K V)} {op : MapOp K V} (u : Usable c (prog ++ [op])) {e e' : Maps K V}
    (hm : mapsRun [] prog = some e) (hs : mapsStep e op = some e') (hop : ∀ s, op ≠ .moveNew s) (hop' : ∀ d s, op ≠ .moveAssign d s)
    {v b cap : Nat} (hv : placeOf (placesRun [] noPlaces prog) v = some (some b, cap)) (ht : targetOf op ≠ some v)
    {i : Nat} {y : K × V} (hy : (entriesOf e v)[i]? = some y) :
    ∃ h h', run c start prog = .ok h ∧ run c start (prog ++ [op]) = .ok h' ∧
      Ref.get h ⟨b, i⟩ = .ok y ∧ Ref.get h' ⟨b, i⟩ = .ok y := by
  obtain ⟨hm', hp'⟩ := place_after hm hs
  obtain ⟨h, h1, h2, _⟩ := C83_references_partial u.left hm
  obtain ⟨h', h3, h4, _⟩ := C83_references_partial u hm'
  refine ⟨h, h', h1, h3, ?_, ?_⟩
  · have := h2 v b cap i hv
    rw [hy] at this
    exact this
  · have hpl : placeOf (placesRun [] noPlaces (prog ++ [op])) v = some (some b, cap) := by
      rw [hp']
      have hlen : v < (placesRun [] noPlaces prog).place.length := by
        simp only [placeOf] at hv
        cases hx : (placesRun [] noPlaces prog).place[v]? with
        | none => rw [hx] at hv; simp at hv
        | some o => exact (List.getElem?_eq_some_iff.1 hx).1
      have push : ∀ o n, placeOf ⟨n, (placesRun [] noPlaces prog).place ++ [o]⟩ v = placeOf (placesRun [] noPlaces prog) v := by
        intro o n
        have := placeOf_push (placesRun [] noPlaces prog) v o
        rw [if_neg (by omega)] at this
        exact this
      have set : ∀ o n w, w ≠ v → placeOf ⟨n, (placesRun [] noPlaces prog).place.set w o⟩ v = placeOf (placesRun [] noPlaces prog) v := by
        intro o n w hw
        have := placeOf_set (placesRun [] noPlaces prog) w v o
        rw [if_neg (fun hh => hw hh.1)] at this
        exact this
      cases op with
      | create n => exact (push _ _).trans hv
      | copyNew s => exact (push _ _).trans hv
      | moveNew s => exact absurd rfl (hop s)
      | copyAssign d s => exact (set _ _ d (fun h => ht (by rw [h]; rfl))).trans hv
      | moveAssign d s => exact absurd rfl (hop' d s)
      | on w o =>
        have hw : w ≠ v := fun h => ht (by rw [h]; rfl)
        cases o with
        | put k x =>
          simp only [placesStep]
          split
          · exact (set _ _ w hw).trans hv
          · exact hv
        | _ => exact hv
      | destroy w => exact (set _ _ w (fun h => ht (by rw [h]; rfl))).trans hv
    have hent : entriesOf e' v = entriesOf e v := by
      have hl : v < e.length := by
        cases hx : e[v]? with
        | none => simp [entriesOf, contentOf, hx, Content.entries] at hy
        | some o => exact (List.getElem?_eq_some_iff.1 hx).1
      have push : ∀ o, entriesOf (e ++ [o]) v = entriesOf e v := by
        intro o
        simp only [entriesOf, contentOf, List.getElem?_append_left hl]
      have set : ∀ o w, w ≠ v → entriesOf (e.set w o) v = entriesOf e v := by
        intro o w hw
        simp only [entriesOf, contentOf, List.getElem?_set_ne hw]
      cases op with
      | create n => simp only [mapsStep, Option.some.injEq] at hs; rw [← hs]; exact push _
      | copyNew s =>
        simp only [mapsStep, Option.map_eq_some_iff] at hs
        obtain ⟨_, _, rfl⟩ := hs
        exact push _
      | moveNew s => exact absurd rfl (hop s)
      | copyAssign d s =>
        simp only [mapsStep, Option.bind_eq_some_iff, Option.map_eq_some_iff] at hs
        obtain ⟨_, _, _, _, rfl⟩ := hs
        exact set _ d (fun h => ht (by rw [h]; rfl))
      | moveAssign d s => exact absurd rfl (hop' d s)
      | on w o =>
        simp only [mapsStep, Option.bind_eq_some_iff, Option.map_eq_some_iff] at hs
        obtain ⟨_, _, _, _, rfl⟩ := hs
        exact set _ w (fun h => ht (by rw [h]; rfl))
      | destroy w =>
        simp only [mapsStep, Option.map_eq_some_iff] at hs
        obtain ⟨_, _, rfl⟩ := hs
        exact set _ w (fun h => ht (by rw [h]; rfl))
    have := h4 v b cap i hpl
    rw [hent, hy] at this
    exact this

/-- **C83 (insertion).** Putting a key that is present, or one for which the block has room, keeps every reference into the
map; it reads the same key afterwards, and the same value unless that key was put. -/
theorem C83_put_keeps_partial {c : Cfg K V} {prog : List (MapOp K V)} {v : Nat} {k : K} {x : V} (u : Usable c (prog ++ [.on v (.put k x)]))
    {e e' : Maps K V} (hm : mapsRun [] prog = some e) (hs : mapsStep e (.on v (.put k x)) = some e') {b cap : Nat}
    (hv : placeOf (placesRun [] noPlaces prog) v = some (some b, cap))
    (hroom : k ∈ (entriesOf e v).map Prod.fst ∨ (entriesOf e v).length < cap) {i : Nat} {y : K × V}
    (hy : (entriesOf e v)[i]? = some y) :
    ∃ h', run c start (prog ++ [.on v (.put k x)]) = .ok h' ∧
      Ref.get h' ⟨b, i⟩ = .ok (if y.1 = k then (k, x) else y) := by
  obtain ⟨hm', hp'⟩ := place_after hm hs
  obtain ⟨h', h3, h4, _⟩ := C83_references_partial u hm'
  refine ⟨h', h3, ?_⟩
  have hpl : placeOf (placesRun [] noPlaces (prog ++ [.on v (.put k x)])) v = some (some b, cap) := by
    rw [hp']
    simp only [placesStep, hv, Option.getD_some]
    rw [if_neg]
    · exact hv
    · rintro ⟨h1, h2⟩
      rcases hroom with h | h
      · exact h1 h
      · omega
  have := h4 v b cap i hpl
  have hent : (entriesOf e' v)[i]? = some (if y.1 = k then (k, x) else y) := by
    simp only [mapsStep, Option.bind_eq_some_iff, Option.map_eq_some_iff] at hs
    obtain ⟨cv, g1, cv', g2, rfl⟩ := hs
    have hl : v < e.length := by
      cases hx : e[v]? with
      | none => simp [contentOf, hx] at g1
      | some o => exact (List.getElem?_eq_some_iff.1 hx).1
    cases cv with
    | none => cases g2
    | some p =>
      obtain ⟨ph, l⟩ := p
      simp only [contentStep, Option.some.injEq] at g2
      subst g2
      simp only [entriesOf, g1, Option.getD_some, Content.entries] at hy
      simp only [entriesOf, contentOf, List.getElem?_set_self hl, Option.join_some, Option.getD_some, Content.entries, orderStep]
      split
      · simp only [List.getElem?_map, hy, Option.map_some]
      · rename_i hk
        rw [List.getElem?_append_left (List.getElem?_eq_some_iff.1 hy).1, hy]
        rw [if_neg]
        intro h0
        exact hk (List.mem_map.2 ⟨y, List.mem_iff_getElem?.2 ⟨i, hy⟩, h0⟩)
  rw [hent] at this
  exact this

/-- **C83 (growth).** Putting a new key into a map whose block is full makes every reference into the map dangle, at once and
for ever. -/
theorem C83_put_moves_all_partial {c : Cfg K V} {prog more : List (MapOp K V)} {v : Nat} {k : K} {x : V}
    (u : Usable c (prog ++ [.on v (.put k x)] ++ more)) {e e' : Maps K V} (hm : mapsRun [] prog = some e)
    (hm' : mapsRun [] (prog ++ [.on v (.put k x)] ++ more) = some e') {b cap : Nat}
    (hv : placeOf (placesRun [] noPlaces prog) v = some (some b, cap)) (hnew : k ∉ (entriesOf e v).map Prod.fst)
    (hfull : cap ≤ (entriesOf e v).length) :
    ∃ h', run c start (prog ++ [.on v (.put k x)] ++ more) = .ok h' ∧ ∀ i, ∃ w, Ref.get h' ⟨b, i⟩ = .ub w := by
  have hsome : ∃ e1, mapsStep e (.on v (.put k x)) = some e1 ∧ mapsRun [] (prog ++ [.on v (.put k x)]) = some e1 := by
    cases hx : mapsStep e (.on v (.put k x)) with
    | none =>
      rw [List.append_assoc, mapsRun_append, hm] at hm'
      simp [mapsRun, hx] at hm'
    | some e1 => exact ⟨e1, rfl, (place_after hm hx).1⟩
  obtain ⟨e1, hs, hm1⟩ := hsome
  obtain ⟨h0, ms0, hr0, r0, hh0, hp0⟩ := u.left.left.run hm
  have hknown : Known (placesRun [] noPlaces prog) := known_run prog (by
    intro v b cap hv
    simp [noPlaces, placeOf] at hv)
  have hp1 := (place_after hm hs).2
  simp only [placesStep, hv, Option.getD_some] at hp1
  rw [if_pos ⟨hnew, by omega⟩] at hp1
  refine C83_dangling_forever_partial u hm1 hm' ?_ ?_
  · rw [hp1]
    exact Nat.lt_succ_of_lt (hknown v b cap hv)
  · intro w cap' hw
    rw [hp1] at hw
    have hw' : placeOf ⟨(placesRun [] noPlaces prog).next, (placesRun [] noPlaces prog).place.set v
        (some (some (placesRun [] noPlaces prog).next, max ((entriesOf e v).length + 1) ((entriesOf e v).length * 3 / 2)))⟩ w =
        some (some b, cap') := hw
    rw [placeOf_set] at hw'
    split at hw'
    · cases hw'
      exact absurd (hknown v _ cap hv) (Nat.lt_irrefl _)
    · rename_i hne
      rw [← hp0] at hv hw'
      obtain ⟨b1, e1, e2⟩ := placeOf_some hv
      obtain ⟨b2, e3, e4⟩ := placeOf_some hw'
      have hvw := r0.nodes.dist v w b1 b2 b e1 e3 (congrArg Prod.fst e2) (congrArg Prod.fst e4)
      refine hne ⟨hvw, ?_⟩
      rw [← hp0]
      simp only [shape, List.length_map]
      exact (List.getElem?_eq_some_iff.1 e1).1

/-- Where the maps of the demonstration are: the first in block 4 (capacity 4), the second nowhere, the third in block 5. -/
example : placesRun [] noPlaces demoMaps = ⟨6, [some (some 4, 4), some (none, 0), some (some 5, 4)]⟩ := by decide +kernel

/-- A reference to the entry `a` survives moving the map, and dangles when the new owner grows. -/
example :
    ((run (nameMap true) start [.create 1, .on 0 (.put (lit "a") 1)]).bind (fun h => findRef (nameMap true) h 0 (lit "a"))) = .ok (some ⟨0, 0⟩) ∧
    ((run (nameMap true) start [.create 1, .on 0 (.put (lit "a") 1), .moveNew 0]).bind (fun h => Ref.get h ⟨0, 0⟩)) = .ok (lit "a", 1) ∧
    ((run (nameMap true) start [.create 1, .on 0 (.put (lit "a") 1), .moveNew 0, .on 1 (.put (lit "b") 2)]).bind
      (fun h => Ref.get h ⟨0, 0⟩)) = .ub .useAfterFree := by
  refine ⟨?_, ?_, ?_⟩ <;> decide +kernel

/-- After a removal a reference to the removed entry refers to the entry that was last. -/
example :
    ((run (nameMap true) start [.create 1, .on 0 (.put (lit "a") 1), .on 0 (.put (lit "b") 2), .on 0 (.put (lit "c") 3)]).bind
      (fun h => findRef (nameMap true) h 0 (lit "a"))) = .ok (some ⟨2, 0⟩) ∧
    ((run (nameMap true) start [.create 1, .on 0 (.put (lit "a") 1), .on 0 (.put (lit "b") 2), .on 0 (.put (lit "c") 3),
      .on 0 (.erase (lit "a"))]).bind (fun h => Ref.get h ⟨2, 0⟩)) = .ok (lit "c", 3) := by
  constructor <;> decide +kernel

end Coil
