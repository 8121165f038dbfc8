import Verif.Proofs.HeapMapThrow
import Verif.Props.HeapMap

/-!
# Properties of maps when memory runs out (C84)

A program is a tree of statements on any number of maps (`HMap.TryMaps`): each statement comes with what goes wrong in it
(`HMap.Fail`), and the program goes on depending on whether it threw. What it should do is `Spec.MapCourse`: a statement
that throws changes nothing.
-/

namespace Coil
open Spec HMap

variable {K V : Type} [DecidableEq K]

/-- The assumptions on a map type and a program: objects have a size, one entry never exceeds the load factor, and all
statements are legal (`Spec.LegalMaps`): meaningful, of representable size, removals are allowed or `erase` is repaired, and no copy
assignment fails between its two members. The theorems with the suffix `_partial` have this assumption; missing are
other removals (C82) and copy assignments that fail half-way, for which C84 is false (`C84_false`). -/
structure UsableTry (c : Cfg K V) (prog : TryMaps K V) : Prop where
  nodeSize : 0 < c.nodeSize
  indexSize : 0 < c.indexSize
  load : ∀ b, 0 < b → c.exceeds 1 b = false
  legal : LegalMaps c.nodeSize c.indexSize c.fixed [] prog

omit [DecidableEq K] in
theorem Represents.accounted {c : Cfg K V} {h : HState K V} {e : Maps K V} (hr : Represents c h e) :
    Accounted h.nodes ∧ Accounted h.buckets := by
  obtain ⟨ms, r, _⟩ := hr
  exact ⟨accounted_of r.nodes, accounted_of r.buckets⟩

/-- **C84 (strong guarantee).** Whatever fails in a program and however the program goes on, it runs without undefined
behaviour; statements that throw leave every map with its entries in their order, the others do what they should; and no
node and no block is leaked, shared or destroyed twice. -/
theorem C84_maps_partial {c : Cfg K V} {prog : TryMaps K V} (u : UsableTry c prog) :
    ∃ h e, runT c start prog = .ok h ∧ MapCourse [] prog e ∧ (∀ v, ShowsMap c h v (contentOf e v)) ∧
      Accounted h.nodes ∧ Accounted h.buckets := by
  obtain ⟨h, ms, e, h1, h2, r, hh⟩ := run_went u.nodeSize u.indexSize u.load rel_start holding_nil u.legal
  have hr : Represents c h e := ⟨ms, r, hh⟩
  exact ⟨h, e, h1, h2, hr.shows, hr.accounted⟩

/-- **C84 (one statement).** In a state with contents `e`, a statement that throws leaves a state with contents `e`; one that returns
leaves the specified contents. Only statements that need memory throw, and only if something fails. -/
theorem C84_step_partial {c : Cfg K V} (hN : 0 < c.nodeSize) (hB : 0 < c.indexSize) (hex : ∀ b, 0 < b → c.exceeds 1 b = false)
    {h : HState K V} {e e1 : Maps K V} (hr : Represents c h e) {op : MapOp K V} (hf : StepFits c.nodeSize c.indexSize e op)
    (hs : c.fixed = true ∨ MapSafe e op) (hm : mapsStep e op = some e1) (fail : Fail) (ha : AssignsWhole op fail) :
    ∃ h1 threw, stepT c h op fail = .ok (h1, threw) ∧ (threw = false → Represents c h1 e1) ∧
      (threw = true → Represents c h1 e ∧ needsMemory op = true ∧ HMapFails fail) := by
  obtain ⟨ms, r, hh⟩ := hr
  obtain ⟨h1, t, a1, a2⟩ := step_went hN hB hex r hh hf hs hm fail ha
  exact ⟨h1, t, a1, a2.done, fun ht => ⟨(a2.threw ht).2.2, (a2.threw ht).1, (a2.threw ht).2.1⟩⟩

/-- **C84 (references).** References into maps survive an insertion that throws: each still reads the same key and value. -/
theorem C84_put_references {c : Cfg K V} (hN : 0 < c.nodeSize) (hB : 0 < c.indexSize) (hex : ∀ b, 0 < b → c.exceeds 1 b = false)
    {h h1 : HState K V} {e e1 : Maps K V} (hr : Represents c h e) {v : Nat} {k : K} {x : V}
    (hf : StepFits c.nodeSize c.indexSize e (.on v (.put k x))) (hm : mapsStep e (.on v (.put k x)) = some e1) {fail : Fail}
    (ht : stepT c h (.on v (.put k x)) fail = .ok (h1, true)) {ref : Ref} {y : K × V} (hy : Ref.get h ref = .ok y) :
    Ref.get h1 ref = .ok y := by
  obtain ⟨ms, r, hh⟩ := hr
  obtain ⟨h2, t, a1, a2, a3⟩ := put_went hN hB hex r hh hf hm fail
  have heq : (Res.ok (h1, true) : Res (HState K V × Bool)) = .ok (h2, t) := ht.symm.trans a1
  cases heq
  obtain ⟨_, _, ms1, r1, hh1⟩ := a2.threw rfl
  have hshape := a3 rfl
  obtain ⟨b, i⟩ := ref
  by_cases hp : ∃ w cap, placeOf (shape h.nodes) w = some (some b, cap)
  · obtain ⟨w, cap, hw⟩ := hp
    have g0 := get_of_place r hh hw i
    have g1 := get_of_place r1 hh1 (hshape.symm ▸ hw) i
    cases he : (entriesOf e w)[i]? with
    | none =>
      rw [he] at g0
      obtain ⟨u, hu⟩ := g0
      rw [hu] at hy
      cases hy
    | some z =>
      rw [he] at g0 g1
      simp only at g0 g1
      rw [g0] at hy
      rw [g1, ← hy]
  · obtain ⟨u, hu⟩ := get_of_no_place r (b := b) (fun w cap hw => hp ⟨w, cap, hw⟩) i
    rw [hu] at hy
    cases hy

omit [DecidableEq K] in
theorem growT_never (c : Cfg K V) (h : HState K V) (v : Nat) : growIfNeededT c h v false = calmly (growIfNeeded c h v) := by
  unfold growIfNeededT growIfNeeded
  cases sizeVar h.nodes v with
  | ub u => rfl
  | diverge => rfl
  | ok size =>
    simp only [Res.bind_ok]
    cases sizeVar h.buckets v with
    | ub u => rfl
    | diverge => rfl
    | ok n =>
      simp only [Res.bind_ok]
      split
      · unfold rehashT resizeAsks
        cases hg : Vec.getVar h.buckets.vars v with
        | ok buf => rfl
        | ub u => simp only [Res.bind_ub, rehash, onBuckets, Vec.step, Vec.onVar, hg, calmly]
        | diverge =>
          unfold Vec.getVar at hg
          split at hg <;> cases hg
      · rfl

omit [DecidableEq K] in
theorem nodesT_never (c : Cfg K V) (h : HState K V) (op : Vec.Op (UNode K V)) : nodesT c h op none = calmly (onNodes c h op) := by
  unfold nodesT calmly onNodes
  rw [Vec.stepT_none]
  cases Vec.step c.nodeSize c.moved c.spare h.nodes op <;> rfl

/-- **C84 (nothing fails).** A statement in which nothing goes wrong does not throw and is that of `Model/HeapMap.lean`. -/
theorem C84_never (c : Cfg K V) (h : HState K V) (op : MapOp K V) :
    stepT c h op .never = (step c h op).bind (fun h1 => .ok (h1, false)) := by
  have hcopy : ∀ src, (∃ a, copyAsks c h src = .ok a) ∨ ∃ u, Vec.getVar h.buckets.vars src = .ub u := by
    intro src
    unfold copyAsks
    cases hg : Vec.getVar h.buckets.vars src with
    | ok buf => exact .inl ⟨_, rfl⟩
    | ub u => exact .inr ⟨u, rfl⟩
    | diverge =>
      unfold Vec.getVar at hg
      split at hg <;> cases hg
  cases op with
  | create n => rfl
  | copyNew src =>
    simp only [stepT, copyNewT, step]
    rcases hcopy src with ⟨a, ha⟩ | ⟨u, hu⟩
    · simp only [ha, Res.bind_ok, Fail.never, Bool.false_and, Bool.false_eq_true, if_false]
      cases onBuckets c h (.copyNew src) with
      | ub u => rfl
      | diverge => rfl
      | ok h1 =>
        simp only [Res.bind_ok, nodesT_never, calmly]
        cases onNodes c h1 (.copyNew src) <;> rfl
    · simp only [copyAsks, hu, Res.bind_ub, onBuckets, Vec.step]
      rfl
  | copyAssign dst src =>
    simp only [stepT, copyAssignT, step]
    rcases hcopy src with ⟨a, ha⟩ | ⟨u, hu⟩
    · simp only [ha, Res.bind_ok, Fail.never, Bool.false_and, Bool.false_eq_true, if_false]
      cases onBuckets c h (.copyAssign dst src) with
      | ub u => rfl
      | diverge => rfl
      | ok h1 =>
        simp only [Res.bind_ok, nodesT_never, calmly]
        rfl
    · simp only [copyAsks, hu, Res.bind_ub, onBuckets, Vec.step]
      rfl
  | on v op =>
    cases op with
    | put k x =>
      simp only [stepT, insertOrAssignT, step, insertOrAssign, Fail.never, growT_never]
      cases findIndex c h v k with
      | ub u => rfl
      | diverge => rfl
      | ok o =>
        cases o with
        | some i => rfl
        | none =>
          simp only [Res.bind_ok]
          cases growIfNeeded c h v with
          | ub u => rfl
          | diverge => rfl
          | ok h1 =>
            simp only [calmly, Res.bind_ok, addT, nodesT_never]
            cases sizeVar h1.nodes v with
            | ub u => rfl
            | diverge => rfl
            | ok new =>
              simp only [Res.bind_ok]
              cases onNodes c h1 (.pushBack v ⟨k, x, none, none, none⟩) <;> rfl
    | _ => rfl
  | _ => rfl

/-- The state after a copy assignment that failed between its two members: the target has the buckets of the source and its
own nodes. -/
theorem torn_rel {c : Cfg K V} (hN : 0 < c.nodeSize) (hB : 0 < c.indexSize) {h h1 : HState K V} {ms : Lmaps K V} (r : Rel c h ms)
    {dst src : Nat} {m m2 : UMap K V} (hs : ms[src]? = some (some m)) (hd : ms[dst]? = some (some m2)) {fail : Fail}
    (ht : stepT c h (.copyAssign dst src) fail = .ok (h1, true)) :
    Rel c h1 ms ∨ Rel c h1 (ms.set dst (some ⟨m.buckets, m2.nodes⟩)) := by
  obtain ⟨a, ha⟩ := copyAsks_ok r hs
  simp only [stepT, copyAssignT, ha, Res.bind_ok] at ht
  split at ht
  · cases ht
    exact .inl r
  · obtain ⟨sB, k1, k2⟩ := Vec.step_spec hB (moved := id) (dflt := some 0) (op := .copyAssign dst src) r.buckets trivial
      (e' := (ms.set dst (some m)).map (·.map UMap.buckets)) (by simp [seqStep, seqOf_map hs, seqOf_map hd, List.map_set])
    have hob : onBuckets c h (.copyAssign dst src) = .ok { h with buckets := sB } := by simp only [onBuckets, k1, Res.bind_ok]
    obtain ⟨sN, t, n1, n2, n3⟩ := nodesT_copy hN (h := { h with buckets := sB }) (op := .copyAssign dst src) r.nodes (.inr ⟨dst, src, rfl⟩)
      (e' := (ms.set dst (some m)).map (·.map UMap.nodes)) (by simp [seqStep, seqOf_map hs, seqOf_map hd, List.map_set]) fail.nodes
    simp only [hob, Res.bind_ok, n1] at ht
    cases ht
    refine .inr ⟨?_, ?_⟩
    · rw [map_set_same hd (m' := ⟨m.buckets, m2.nodes⟩) (f := UMap.nodes) rfl]
      exact (n3 rfl).1
    · simp only [List.map_set, Option.map_some] at k2 ⊢
      exact k2

/-- The ways to make a map usable again after a failed copy assignment: clear it, destroy it, or assign to it. -/
def repairs (dst : Nat) : MapOp K V → Prop
  | .on v .clear => v = dst
  | .destroy v => v = dst
  | .copyAssign d s => d = dst ∧ s ≠ dst
  | _ => False

/-- **C84 (failed copy assignment).** A copy assignment that throws leaks nothing, leaves all other maps as they were, and leaves
the target with its entries for iteration. -/
theorem C84_assign_leaves {c : Cfg K V} (hN : 0 < c.nodeSize) (hB : 0 < c.indexSize) {h h1 : HState K V} {e : Maps K V}
    (hr : Represents c h e) {dst src : Nat} (hs : contentOf e src ≠ none) (hd : contentOf e dst ≠ none) {fail : Fail}
    (ht : stepT c h (.copyAssign dst src) fail = .ok (h1, true)) :
    Accounted h1.nodes ∧ Accounted h1.buckets ∧ iterate h1 dst = .ok (entriesOf e dst) ∧
      ∀ v, v ≠ dst → ShowsMap c h1 v (contentOf e v) := by
  obtain ⟨ms, r, hh⟩ := hr
  obtain ⟨x, hx⟩ := Option.ne_none_iff_exists'.1 hs
  obtain ⟨y, hy⟩ := Option.ne_none_iff_exists'.1 hd
  obtain ⟨m, g1, g2, g3, g4⟩ := hh.live hx
  obtain ⟨m2, j1, j2, j3, j4⟩ := hh.live hy
  have hent : m2.entries = entriesOf e dst := by
    simp only [entriesOf, hy, Option.getD_some]
    cases y with
    | none => cases j4; rfl
    | some p => exact j4.2.1
  rcases torn_rel hN hB r g1 j1 ht with r1 | r1
  · have hr1 : Represents c h1 e := ⟨ms, r1, hh⟩
    exact ⟨hr1.accounted.1, hr1.accounted.2, by rw [iterate_eq r1 j1, hent], fun v _ => hr1.shows v⟩
  · refine ⟨accounted_of r1.nodes, accounted_of r1.buckets, ?_, ?_⟩
    · rw [iterate_eq r1 (get_set_self j1)]
      exact congrArg Res.ok hent
    · intro v hv
      have := holding_at hh v
      refine shows_at r1 ?_
      rw [List.getElem?_set_ne (fun h => hv h.symm)]
      exact this

/-- **C84 (after a failed copy assignment).** Clearing, destroying or assigning to the target makes it usable again: the program can
go on as if the assignment had not happened, except that a cleared target has no buckets if the source had none. -/
theorem C84_assign_repair {c : Cfg K V} (hN : 0 < c.nodeSize) (hB : 0 < c.indexSize) (hex : ∀ b, 0 < b → c.exceeds 1 b = false)
    {h h1 : HState K V} {e e1 : Maps K V} (hr : Represents c h e) {dst src : Nat} (hs : contentOf e src ≠ none)
    (hd : contentOf e dst ≠ none) {fail : Fail} (ht : stepT c h (.copyAssign dst src) fail = .ok (h1, true)) {op : MapOp K V}
    (hop : repairs dst op) (hm : mapsStep e op = some e1) :
    ∃ e0 e2 h2, (e0 = e ∨ e0 = e.set dst (contentOf e src)) ∧ mapsStep e0 op = some e2 ∧ step c h1 op = .ok h2 ∧ Represents c h2 e2 := by
  obtain ⟨ms, r, hh⟩ := hr
  obtain ⟨x, hx⟩ := Option.ne_none_iff_exists'.1 hs
  obtain ⟨y, hy⟩ := Option.ne_none_iff_exists'.1 hd
  obtain ⟨m, g1, g2, g3, g4⟩ := hh.live hx
  obtain ⟨m2, j1, j2, j3, j4⟩ := hh.live hy
  have hfit : StepFits c.nodeSize c.indexSize e op := by
    cases op with
    | on v op => cases op <;> first | trivial | exact hop.elim
    | create n => exact hop.elim
    | _ => trivial
  have hsafe : MapSafe e op := by
    cases op with
    | on v op => cases op <;> first | (intro _ _ _; trivial) | exact hop.elim
    | _ => trivial
  rcases torn_rel hN hB r g1 j1 ht with r1 | r1
  · obtain ⟨h2, ms2, a1, a2, a3⟩ := step_whole hN hB hex r1 hh hfit (.inr hsafe) hm
    exact ⟨e, e1, h2, .inl rfl, hm, a1, ms2, a2, a3⟩
  · have hl : dst < ms.length := (List.getElem?_eq_some_iff.1 j1).1
    have hle : dst < e.length := (List.getElem?_eq_some_iff.1 j2).1
    have hv' : (ms.set dst (some ⟨m.buckets, m2.nodes⟩))[dst]? = some (some ⟨m.buckets, m2.nodes⟩) := get_set_self j1
    have he' : contentOf (e.set dst (contentOf e src)) dst = some x := by
      simp [contentOf, hle, ← hx]
    have finish : ∀ {ms2 : Lmaps K V} {e2 : Maps K V}, LFits c (ms.set dst (some ⟨m.buckets, m2.nodes⟩)) op →
        lstep c (ms.set dst (some ⟨m.buckets, m2.nodes⟩)) op = .ok ms2 → mapsStep (e.set dst (contentOf e src)) op = some e2 →
        Holding c ms2 e2 →
        ∃ e0 e2 h2, (e0 = e ∨ e0 = e.set dst (contentOf e src)) ∧ mapsStep e0 op = some e2 ∧ step c h1 op = .ok h2 ∧ Represents c h2 e2 := by
      intro ms2 e2 b1 b2 b3 b4
      have hsim := step_prog_sim hN hB r1 b1
      rw [b2] at hsim
      obtain ⟨h2, k1, k2⟩ := hsim.ok_right
      exact ⟨_, e2, h2, .inr rfl, b3, k1, ms2, k2, b4⟩
    cases op with
    | on v op =>
      cases op with
      | clear =>
        cases hop
        refine finish (ms2 := (ms.set dst (some ⟨m.buckets, m2.nodes⟩)).set dst (some (UMap.clear ⟨m.buckets, m2.nodes⟩)))
          (e2 := (e.set dst (contentOf e src)).set dst (some (match x with | none => none | some _ => some (.calm, [])))) trivial ?_ ?_ ?_
        · simp only [lstep, liveMap, hv', Res.bind_ok, UMap.applyOp]
        · simp only [mapsStep, he', Option.bind_some]
          cases x <;> rfl
        · rw [List.set_set, List.set_set]
          refine hh.set dst (o := some _) (x := some _) ?_
          cases x with
          | none => cases g4; rfl
          | some p => exact ⟨show UMap.Good c.hash .calm (UMap.clear m) from UMap.clear_good g4.1, rfl, by simp⟩
      | put k x => exact hop.elim
      | erase k => exact hop.elim
    | destroy v =>
      cases hop
      refine finish (ms2 := (ms.set dst (some ⟨m.buckets, m2.nodes⟩)).set dst none) (e2 := (e.set dst (contentOf e src)).set dst none) trivial ?_ ?_ ?_
      · simp only [lstep, liveMap, hv', Res.bind_ok]
      · simp only [mapsStep, he', Option.map_some]
      · rw [List.set_set, List.set_set]
        exact hh.set dst (o := none) (x := none) trivial
    | copyAssign d s =>
      obtain ⟨rfl, hne⟩ := hop
      simp only [mapsStep, Option.bind_eq_some_iff, Option.map_eq_some_iff] at hm
      obtain ⟨z, hz, _⟩ := hm
      obtain ⟨m3, i1, i2, i3, i4⟩ := hh.live hz
      have hs' : (ms.set d (some ⟨m.buckets, m2.nodes⟩))[s]? = some (some m3) := by
        rw [List.getElem?_set_ne (fun h => hne h.symm)]
        exact i1
      have hz' : contentOf (e.set d (contentOf e src)) s = some z := by
        unfold contentOf at hz ⊢
        rw [List.getElem?_set_ne (fun h => hne h.symm)]
        exact hz
      refine finish (ms2 := (ms.set d (some ⟨m.buckets, m2.nodes⟩)).set d (some m3)) (e2 := (e.set d (contentOf e src)).set d (some z)) trivial ?_ ?_ ?_
      · simp only [lstep, liveMap, hv', hs', Res.bind_ok]
      · simp only [mapsStep, hz', he', Option.bind_some, Option.map_some]
      · rw [List.set_set, List.set_set]
        exact hh.set d (o := some m3) (x := some z) i4
    | create n => exact hop.elim
    | copyNew s => exact hop.elim
    | moveNew s => exact hop.elim
    | moveAssign d s => exact hop.elim

/-! ### Examples -/

/-- The rest of a program does not depend on whether the statement threw. -/
def always (op : MapOp K V) (fail : Fail) (rest : TryMaps K V) : TryMaps K V := .stmt op fail (fun _ => rest)

/-- Without memory for the third node, the program goes on without it. -/
def shortOfMemory : TryMaps Bytes Nat :=
  always (.create 1) .never (always (.on 0 (.put (lit "a") 1)) .never (always (.on 0 (.put (lit "b") 2)) .never
    (.stmt (.on 0 (.put (lit "c") 3)) ⟨false, some 0⟩ (fun threw =>
      if threw then always (.on 0 (.put (lit "a") 7)) ⟨true, some 0⟩ (always (.copyNew 0) ⟨false, some 2⟩ .stop) else .stop))))

/-- The third insertion throws after the buckets have grown, the assignment to `a` needs no memory, and the copy throws at
the second node. -/
example :
    ((runT (nameMap false) start shortOfMemory).bind (fun h => iterate h 0)) = .ok [(lit "a", 7), (lit "b", 2)] ∧
    ((runT (nameMap false) start shortOfMemory).bind (fun h => find (nameMap false) h 0 (lit "c"))) = .ok none ∧
    ((runT (nameMap false) start shortOfMemory).bind (fun h => (sizeVar h.buckets 0).bind (fun n =>
      .ok (n, h.nodes.vars.length, h.nodes.mem.ctors, h.nodes.mem.dtors)))) = .ok (4, 1, 4, 2) := by
  refine ⟨?_, ?_, ?_⟩ <;> decide +kernel

/-- A legal program: the second insertion may throw. -/
example : UsableTry (nameMap true) (always (.create 1) .never (always (.on 0 (.put (lit "a") 1)) .never
    (.stmt (.on 0 (.put (lit "b") 2)) ⟨true, some 0⟩ (fun _ => .stop)))) := by
  have never : ∀ {op : MapOp Bytes Nat} {P : Prop}, needsMemory op = true → HMapFails .never → P := by
    rintro _ _ _ (h | h) <;> simp [Fail.never] at h
  refine ⟨by decide, by decide, ?_, ?_⟩
  · intro b hb
    simp [nameMap, overOne]
    omega
  · refine ⟨(by decide : 1 * 8 < 2 ^ 64), .inl rfl, by rintro _ _ ⟨⟩, by simp [mapsStep], ?_, never⟩
    rintro _ ⟨⟩
    refine ⟨by rintro x ⟨⟩; exact ⟨by decide, by decide⟩, .inl rfl, by rintro _ _ ⟨⟩, by simp [mapsStep, contentOf, contentStep], ?_, never⟩
    rintro _ ⟨⟩
    refine ⟨by rintro x ⟨⟩; exact ⟨by decide, by decide⟩, .inl rfl, by rintro _ _ ⟨⟩, by simp [mapsStep, contentOf, contentStep], ?_, ?_⟩
    · intro _ _; trivial
    · intro _ _; trivial

/-- Two maps, one with an entry; there is no memory for the nodes when it is assigned to the other. -/
def failedAssign : TryMaps Bytes Nat :=
  always (.create 1) .never (always (.create 1) .never (always (.on 0 (.put (lit "a") 1)) .never
    (always (.copyAssign 1 0) ⟨false, some 0⟩ .stop)))

/-- **C84 is false of the code** for copy assignments: when there is no memory for the nodes, the target already has the
buckets of the source, and looking up a key reads nodes that do not exist. -/
theorem C84_false : ∃ (prog : TryMaps Bytes Nat) (e : Maps Bytes Nat), MapCourse [] prog e ∧ contentOf e 1 = some (some (.calm, [])) ∧
    ((runT (nameMap true) start prog).bind (fun h => iterate h 1)) = .ok [] ∧
    ((runT (nameMap true) start prog).bind (fun h => find (nameMap true) h 1 (lit "a"))) = .ub .nullDeref := by
  refine ⟨failedAssign, [some (some (.calm, [(lit "a", 1)])), some (some (.calm, []))], ?_, rfl, ?_, ?_⟩
  · exact .done rfl (.done rfl (.done rfl (.threw rfl (.inr (by simp)) .stop)))
  · decide +kernel
  · decide +kernel

/-- Clearing the target repairs it. -/
example : ((runT (nameMap true) start (always (.create 1) .never (always (.create 1) .never (always (.on 0 (.put (lit "a") 1)) .never
    (always (.copyAssign 1 0) ⟨false, some 0⟩ (always (.on 1 .clear) .never (always (.on 1 (.put (lit "b") 2)) .never .stop))))))).bind
      (fun h => (find (nameMap true) h 1 (lit "a")).bind (fun a => (find (nameMap true) h 1 (lit "b")).bind (fun b => .ok (a, b))))) =
    .ok (none, some 2) := by decide +kernel

end Coil
