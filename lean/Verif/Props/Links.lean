import Verif.Proofs.UMapSim
import Verif.Props.UMap
import Verif.Props.Registry

/-!
# The map as it is, as long as no removal reads a stale link (C24, C25)
-/

namespace Coil
open Spec UMap

variable {K V : Type} [DecidableEq K]

/-- Every removal of the history, run on a new map as it is in the code, reads right `prev` links only. -/
def LinksOkFrom (hash : K → Nat) (exceeds : Nat → Nat → Bool) (buckets : Nat) (ops : List (DictOp K V)) : Prop :=
  ∀ m, create hash buckets = .ok m → LinksOk hash exceeds m ops

omit [DecidableEq K] in
theorem mrel_refl (m : UMap K V) : MRel (fun _ => False) m m :=
  ⟨rfl, rfl, fun j a b ha hb => by
    rw [ha] at hb
    cases hb
    exact ⟨rfl, rfl, rfl, rfl, .inl rfl⟩⟩

theorem mapAfter_rel {hash : K → Nat} {exceeds : Nat → Nat → Bool} (hex : ∀ b, 0 < b → exceeds 1 b = false) {buckets : Nat}
    (hb : 0 < buckets) (ops : List (DictOp K V)) (hl : LinksOkFrom hash exceeds buckets ops) :
    ∃ m m', mapAfter false hash exceeds buckets ops = .ok m ∧ mapAfter true hash exceeds buckets ops = .ok m' ∧
      MRel (fun _ => False) m m' ∧ WF hash m' := by
  obtain ⟨m0, h1, h2, h3⟩ := create_spec (V := V) hash hb
  obtain ⟨n, n', ph', q1, q2, q3, q4⟩ := run_rel hex (mrel_refl m0) h2 (d := fun _ => none) (by rw [h3]; exact lists_nil) ops (hl m0 h1)
  exact ⟨n, n', by simp only [mapAfter, h1, Res.bind_ok, q1], by simp only [mapAfter, h1, Res.bind_ok, q2], q3, q4.wf⟩

/-- **C24 (code as it is), by the links that are read.** A history behaves like a dictionary if none of its removals reads a stale
`prev` link; the map is then the repaired map, except for stale links. Missing for the full claim: the other histories. -/
theorem C24_links_partial {hash : K → Nat} {exceeds : Nat → Nat → Bool} (hex : ∀ b, 0 < b → exceeds 1 b = false) {buckets : Nat}
    (hb : 0 < buckets) (ops : List (DictOp K V)) (hl : LinksOkFrom hash exceeds buckets ops) :
    ∃ m, mapAfter false hash exceeds buckets ops = .ok m ∧ BehavesLike hash m ops ∧ m.entries = orderAfter ops := by
  obtain ⟨m, m', h1, h2, h3, h4⟩ := mapAfter_rel hex hb ops hl
  obtain ⟨m'', g1, _, g2, g3⟩ := mapAfter_spec hex hb (fixed := true) (hash := hash) ops (.inl rfl)
  rw [h2] at g1
  cases g1
  refine ⟨m, h1, ⟨fun k => by rw [find_rel h3]; exact g2.1 k, by rw [entries_rel h3]; exact g2.2.1, ?_⟩, by rw [entries_rel h3, g3]⟩
  rw [entries_length]
  rfl

/-- **C24.** What a stale link is: it leads to a place behind the one where the predecessor is now. A removal that follows it writes to
a node that has nothing to do with the removed one, or outside the vector. -/
theorem C24_stale_link {hash : K → Nat} {exceeds : Nat → Nat → Bool} (hex : ∀ b, 0 < b → exceeds 1 b = false) {buckets : Nat}
    (hb : 0 < buckets) (ops : List (DictOp K V)) (hl : LinksOkFrom hash exceeds buckets ops) {m : UMap K V}
    (hm : mapAfter false hash exceeds buckets ops = .ok m) {j : Nat} (hj : ¬ LinkRight m j) :
    ∃ nd x p np, m.nodes[j]? = some nd ∧ nd.prev = some x ∧ m.nodes[p]? = some np ∧ np.next = some j ∧ p < x := by
  obtain ⟨m0, m', h1, _, h3, h4⟩ := mapAfter_rel hex hb ops hl
  rw [hm] at h1
  cases h1
  simp only [LinkRight, Classical.not_forall] at hj
  obtain ⟨nd, x, hn, hx, hc⟩ := hj
  obtain ⟨nd', hn', r⟩ := h3.nodes.some' hn
  have hlt := (List.getElem?_eq_some_iff.1 hn').1
  have pred : ∀ y, nd'.prev = some y → ∃ np, m.nodes[y]? = some np ∧ np.next = some j := by
    intro y hy
    obtain ⟨k1, k2⟩ := h4.prev j y nd' hlt hn' hy
    obtain ⟨ny, hny⟩ := h4.get k1
    obtain ⟨np, hnp, r'⟩ := h3.nodes.some hny
    exact ⟨np, hnp, by rw [r'.next, k2 ny hny]⟩
  rcases r.prev with h | ⟨_, x', y, e1, e2, e3⟩
  · exact absurd (pred x (by rw [← h, hx])) hc
  · rw [hx] at e1
    cases e1
    obtain ⟨np, hnp, hnx⟩ := pred y e2
    exact ⟨nd, x, y, np, hn, hx, hnp, hnx, e3⟩

/-- A history in which, at every removal, no two present keys share a bucket. -/
def Uncrowded (hash : K → Nat) (exceeds : Nat → Nat → Bool) : UMap K V → List (DictOp K V) → Prop
  | _, [] => True
  | m, op :: ops =>
    ((∃ k, op = .erase k) → ∀ k1 ∈ m.entries.map Prod.fst, ∀ k2 ∈ m.entries.map Prod.fst,
      hash k1 % m.buckets.length = hash k2 % m.buckets.length → k1 = k2) ∧
    ∀ m', applyOp false hash exceeds m op = .ok m' → Uncrowded hash exceeds m' ops

theorem linksOk_uncrowded {hash : K → Nat} {exceeds : Nat → Nat → Bool} (hex : ∀ b, 0 < b → exceeds 1 b = false) {m m' : UMap K V}
    {ph : Phase} (h : MRel (fun _ => False) m m') (g : Good hash ph m') {d : K → Option V} (hd : Lists m'.entries d)
    (ops : List (DictOp K V)) (hu : Uncrowded hash exceeds m ops) : LinksOk hash exceeds m ops := by
  induction ops generalizing m m' ph d with
  | nil => trivial
  | cons op ops ih =>
    have hone : (∃ k, op = .erase k) → ∀ j, LinkRight m j := by
      intro hop j nd p hn hp
      exfalso
      obtain ⟨nd', hn', r⟩ := h.nodes.some' hn
      obtain ⟨y, hy⟩ : ∃ y, nd'.prev = some y := by
        rcases r.prev with e | ⟨_, x, y, _, e, _⟩
        · exact ⟨p, by rw [← e, hp]⟩
        · exact ⟨y, e⟩
      have hlt := (List.getElem?_eq_some_iff.1 hn').1
      obtain ⟨k1, k2⟩ := g.wf.prev j y nd' hlt hn' hy
      obtain ⟨ny, hny⟩ := g.wf.get k1
      have hnx := k2 ny hny
      have hh := ((g.wf.next y j ny k1 hny hnx).2 nd' hn').2
      have e := entries_rel h
      have hk := hu.1 hop nd'.key (by rw [e]; exact mem_keys.2 ⟨j, nd', hn', rfl⟩) ny.key
        (by rw [e]; exact mem_keys.2 ⟨y, ny, hny, rfl⟩) (by rw [h.buckets]; exact hh)
      have hjy := nodup_index hd.1 hn' hny hk
      obtain ⟨rk, hr⟩ := g.wf.rank
      have := hr y j ny k1 hny hnx
      rw [hjy] at this
      omega
    have hrem : ∀ k, op = .erase k → RemovalOk hash m k := by
      intro k hk i nd _ _
      have := hone ⟨k, hk⟩
      exact ⟨this _, .inr (.inr (this _))⟩
    refine ⟨hrem, fun m1 hm1 => ?_⟩
    obtain ⟨m1', s1, s2, s3⟩ := step_spec hex (fixed := true) g hd.1 op (.inl rfl)
    have hr : RRel (MRel (fun _ => False)) (applyOp false hash exceeds m op) (applyOp true hash exceeds m' op) := by
      cases op with
      | put k v => exact insertOrAssign_rel h k v
      | erase k => exact erase_rel h g.wf (hrem k rfl)
      | clear =>
        refine .ok ⟨by simp [clear, h.buckets], ⟨rfl, ?_⟩⟩
        intro j a b ha
        simp [clear] at ha
    rw [s1] at hr
    obtain ⟨m2, t1, t2⟩ := hr.of_ok
    rw [hm1] at t1
    cases t1
    exact ih t2 s2 (d := dictStep d op) (by rw [s3]; exact lists_step hd op) (hu.2 m1 hm1)

/-- **C24 (code as it is), without collisions.** If at every removal no two present keys share a bucket, the map behaves like a
dictionary. -/
theorem C24_uncrowded_partial {hash : K → Nat} {exceeds : Nat → Nat → Bool} (hex : ∀ b, 0 < b → exceeds 1 b = false) {buckets : Nat}
    (hb : 0 < buckets) (ops : List (DictOp K V)) (hu : ∀ m, create hash buckets = .ok m → Uncrowded hash exceeds m ops) :
    ∃ m, mapAfter false hash exceeds buckets ops = .ok m ∧ BehavesLike hash m ops := by
  obtain ⟨m0, h1, h2, h3⟩ := create_spec (V := V) hash hb
  obtain ⟨m, g1, g2, _⟩ := C24_links_partial hex hb ops (fun m hm => by
    rw [h1] at hm
    cases hm
    exact linksOk_uncrowded hex (mrel_refl m0) h2 (d := fun _ => none) (by rw [h3]; exact lists_nil) ops (hu m0 h1))
  exact ⟨m, g1, g2⟩

/-- **C25 (code as it is), by the links that are read.** After a history none of whose removals reads a stale link, every look-up ends and
stays in bounds. -/
theorem C25_links_partial {hash : K → Nat} {exceeds : Nat → Nat → Bool} (hex : ∀ b, 0 < b → exceeds 1 b = false) {buckets : Nat}
    (hb : 0 < buckets) (ops : List (DictOp K V)) (hl : LinksOkFrom hash exceeds buckets ops) (k : K) :
    ∃ m, mapAfter false hash exceeds buckets ops = .ok m ∧ (find hash m k).IsOk := by
  obtain ⟨m, h1, h2, _⟩ := C24_links_partial hex hb ops hl
  exact ⟨m, h1, by rw [h2.1 k]; trivial⟩

/-- The earlier condition on histories is a special case. -/
theorem linksOk_of_safe {hash : K → Nat} {exceeds : Nat → Nat → Bool} (hex : ∀ b, 0 < b → exceeds 1 b = false) {m : UMap K V} {ph : Phase}
    (g : Good hash ph m) {d : K → Option V} (hd : Lists m.entries d) (ops : List (DictOp K V)) (hs : SafeFrom ph m.entries ops) :
    LinksOk hash exceeds m ops := by
  induction ops generalizing m ph d with
  | nil => trivial
  | cons op ops ih =>
    have hall : ∀ j, LinkRight m j := by
      intro j nd p hn hp
      obtain ⟨k1, k2⟩ := g.wf.prev j p nd (List.getElem?_eq_some_iff.1 hn).1 hn hp
      obtain ⟨np, hnp⟩ := g.wf.get k1
      exact ⟨np, hnp, k2 np hnp⟩
    refine ⟨fun k _ i nd _ _ => ⟨hall _, .inr (.inr (hall _))⟩, fun m1 hm1 => ?_⟩
    obtain ⟨m1', s1, s2, s3⟩ := step_spec hex (fixed := false) g hd.1 op (.inr hs.1)
    rw [hm1] at s1
    cases s1
    exact ih s2 (d := dictStep d op) (by rw [s3]; exact lists_step hd op) (by rw [s3]; exact hs.2)

theorem C24_links_general {hash : K → Nat} {exceeds : Nat → Nat → Bool} (hex : ∀ b, 0 < b → exceeds 1 b = false) {buckets : Nat}
    (hb : 0 < buckets) (ops : List (DictOp K V)) (hs : SafeFrom .calm [] ops) : LinksOkFrom hash exceeds buckets ops := by
  intro m hm
  obtain ⟨m0, h1, h2, h3⟩ := create_spec (V := V) hash hb
  rw [h1] at hm
  cases hm
  exact linksOk_of_safe hex h2 (d := fun _ => none) (by rw [h3]; exact lists_nil) ops (by rw [h3]; exact hs)

/-! ## The registry (C32, C48) -/

section
variable {W C D : Type} {P : C → FunctorDef W C D} {charSigned catching : Bool} {exceeds : Nat → Nat → Bool}
  {acts : List (Action W C D)} {s : Sys (UMap Bytes (Command C D)) W C D} {name : Bytes}

/-- **C32 (code as it is), by the links that are read.** After any actions during which no removal reads a stale link, a name stands for
exactly the functions of the last `add` that was not undone. -/
theorem C32_links_partial (hex : ∀ b, 0 < b → exceeds 1 b = false) (h : Reached P false charSigned exceeds catching acts s)
    (hl : LinksOkFrom (djb2 charSigned) exceeds 1 (s.history.map asDictOp)) :
    (∀ name fs, Registered s.history name fs →
      bindingsGet (mapOps false charSigned exceeds) s name = .ok (some ⟨name, fs⟩)) ∧
    (∀ name, (∀ fs, ¬ Registered s.history name fs) →
      bindingsGet (mapOps false charSigned exceeds) s name = .ok none) := by
  obtain ⟨m, h1, h2, _⟩ := C24_links_partial hex (by omega : 0 < 1) _ hl
  have hf := h.follows
  unfold FollowsHistory at hf
  rw [hf] at h1
  cases h1
  constructor
  · intro name fs hr
    have := h2.1 name
    rw [(dictAfter_registered _ _ ⟨name, fs⟩).2 ⟨rfl, hr⟩] at this
    exact this
  · intro name hr
    have := h2.1 name
    rw [(dictAfter_missing _ _).2 hr] at this
    exact this

/-- **C48 (code as it is), by the links that are read.** -/
theorem C48_links_partial (hex : ∀ b, 0 < b → exceeds 1 b = false) (h : Reached P false charSigned exceeds catching acts s)
    (hl : LinksOkFrom (djb2 charSigned) exceeds 1 (s.history.map asDictOp)) {h1 h2 : List (RegEvent C D)} {fs : List (Inst C D)}
    (hh : s.history = h1 ++ .added name fs :: h2) (hn : ∀ ev ∈ h2, ¬ Touches name ev) :
    ∃ cmd, bindingsGet (mapOps false charSigned exceeds) s name = .ok (some cmd) ∧ cmd.name = name ∧
      cmd.functors.map (arity P) = fs.map (fun f => (P f.code).params.length) ∧
      cmd.functors.map (parameterTypes P) = fs.map (fun f => (P f.code).params.map (fun p => p.conv.name)) ∧
      cmd.functors.map (returnType P) = fs.map (fun f => (P f.code).retName) :=
  ⟨_, (C32_links_partial hex h hl).1 _ _ ⟨h1, h2, hh, hn⟩, rfl, rfl, rfl, rfl⟩

end

/-! ## Checking a concrete history -/

/-- `LinkRight`, computed. -/
def linkRightB (m : UMap K V) (j : Nat) : Bool :=
  match m.nodes[j]? with
  | none => true
  | some nd =>
    match nd.prev with
    | none => true
    | some p =>
      match m.nodes[p]? with
      | none => false
      | some np => decide (np.next = some j)

omit [DecidableEq K] in
theorem linkRight_of_check {m : UMap K V} {j : Nat} (h : linkRightB m j = true) : LinkRight m j := by
  intro nd p hn hp
  simp only [linkRightB, hn, hp] at h
  split at h
  · simp at h
  · rename_i np hnp
    exact ⟨np, hnp, by simpa using h⟩

/-- `LinksOk`, computed. -/
def linksOkB (hash : K → Nat) (exceeds : Nat → Nat → Bool) : UMap K V → List (DictOp K V) → Bool
  | _, [] => true
  | m, op :: ops =>
    (match op with
      | .erase k =>
        match findIndex hash m k with
        | .ok (some i) => linkRightB m i && (decide (i = m.nodes.length - 1) || linkRightB m (m.nodes.length - 1))
        | _ => true
      | _ => true) &&
    match applyOp false hash exceeds m op with
    | .ok m' => linksOkB hash exceeds m' ops
    | _ => true

theorem linksOk_of_check {hash : K → Nat} {exceeds : Nat → Nat → Bool} {ops : List (DictOp K V)} {m : UMap K V}
    (h : linksOkB hash exceeds m ops = true) : LinksOk hash exceeds m ops := by
  induction ops generalizing m with
  | nil => trivial
  | cons op ops ih =>
    simp only [linksOkB, Bool.and_eq_true] at h
    refine ⟨?_, ?_⟩
    · rintro k rfl i nd hi _
      simp only [hi, Bool.and_eq_true, Bool.or_eq_true, decide_eq_true_eq] at h
      obtain ⟨⟨h1, h2⟩, _⟩ := h
      exact ⟨linkRight_of_check h1, h2.imp id (fun h2 => .inr (linkRight_of_check h2))⟩
    · intro m' hm'
      rw [hm'] at h
      exact ih h.2

/-- Four names are removed one after the other, in a map with collisions: allowed here, not by the earlier condition. -/
example : LinksOkFrom (djb2 true) overOne 1 ([.put (lit "a") 1, .put (lit "e") 2, .put (lit "i") 3, .put (lit "m") 4, .put (lit "b") 5,
    .erase (lit "e"), .erase (lit "a"), .erase (lit "i"), .erase (lit "m")] : List (DictOp Bytes Nat)) := by
  intro m hm
  apply linksOk_of_check
  have h : create (K := Bytes) (V := Nat) (djb2 true) 1 = .ok ⟨[none], []⟩ := by decide +kernel
  rw [h] at hm
  cases hm
  decide +kernel

/-- The history of `C25_out_of_bounds` is not: its last removal reads a stale link. -/
example : linksOkB (djb2 true) overOne ⟨[none], []⟩ ([.put (lit "a") 1, .put (lit "e") 2, .put (lit "i") 3, .put (lit "m") 4,
    .erase (lit "a"), .erase (lit "e"), .erase (lit "m")] : List (DictOp Bytes Nat)) = false := by decide +kernel

end Coil
