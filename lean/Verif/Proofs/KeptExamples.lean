import Verif.Proofs.Kept

/-! # Keeping views: the inventory and the entities -/

namespace Coil
namespace Vw
open Spec

theorem items_lasting : Lasting ItemsAre := fun _ _ _ _ hk h => h.mono fun _ _ hi => ⟨read_keeps hk hi.1, hi.2⟩

theorem entities_lasting : Lasting EntitiesAre := fun _ _ _ _ hk h => ⟨h.1, h.2.mono fun _ _ hi => read_keeps hk hi⟩

theorem view_is : ParamIs .view ⟨Bytes, stringConv⟩ (fun m (r : Ref) (t : Bytes) => m.read r = .ok t) := by
  intro m a a' h
  obtain ⟨rs⟩ := a
  have hv := h
  simp only [Mem.readValue, Res.bind_eq_ok] at h
  obtain ⟨ts, h1, h2⟩ := h
  cases h2
  change m.readList rs = .ok ts at h1
  match rs with
  | [] =>
    cases h1
    exact ⟨(fun h => by cases h), (fun x hx => by simpa [VParam.view, hv, stringConv] using hx), (fun x hx => by cases hx)⟩
  | [r] =>
    simp only [Mem.readList, Res.bind_eq_ok] at h1
    obtain ⟨b, h3, _, h4, h5⟩ := h1
    cases h4
    cases h5
    refine ⟨(fun h => by cases h), (fun x hx => by cases hx), fun x hx => ⟨r, rfl, ?_⟩⟩
    cases hx
    exact h3
  | r :: r' :: rs =>
    simp only [Mem.readList, Res.bind_eq_ok] at h1
    obtain ⟨b, h3, _, ⟨b', h6, bs, h7, h4⟩, h5⟩ := h1
    cases h4
    cases h5
    exact ⟨(fun h => by cases h), (fun x hx => by simpa [VParam.view, hv, stringConv] using hx), (fun x hx => by cases hx)⟩

theorem value_is : ParamIs .value ⟨Value, valueConv⟩ (fun m (v : GValue Ref) (x : Value) => m.readValue v = .ok x) := by
  intro m a a' h
  refine ⟨(fun h => by cases h), (fun x hx => by cases hx), fun x hx => ⟨a, rfl, ?_⟩⟩
  cases hx
  exact h

/-! ## The inventory -/

theorem restOk_is {m : Mem} {i : Item Ref} {j : Item Bytes} (h : ItemIs m i j) (f : Filter) : f.restOk i = f.restOk j := by
  obtain ⟨_, _, h2, h3, h4⟩ := h
  simp only [Filter.restOk, h2, h3, h4]

theorem itemLine_is {m : Mem} {i : Item Ref} {j : Item Bytes} (h : ItemIs m i j) (pl : Platform) (t : Bytes) : itemLine pl i t = itemLine pl j t := by
  obtain ⟨_, h1, h2, h3, h4⟩ := h
  simp only [itemLine, h1, h2, h3, h4]

theorem listLoop_sim (pl : Platform) (f : Filter) {ret : Mem → Unit → Unit → Prop} (hr : ∀ m, ret m () ()) {base m : Mem} {w : List (Item Ref)}
    {w' : List (Item Bytes)} (h : ItemsAre m w w') : Sim ItemsAre ret base m (listLoop pl f w) (listLoopText pl f w') := by
  induction h with
  | nil => exact .ret (hr m)
  | @cons i j is js hi _ ih =>
    unfold listLoop listLoopText
    rw [← restOk_is hi, ← itemLine_is hi]
    cases hn : f.name with
    | none =>
      have : f.nameOk j.name = true := by simp [Filter.nameOk, hn]
      rw [this, Bool.true_and]
      dsimp only
      split
      · exact .read hi.1 (.logline _ ih)
      · exact ih
    | some n =>
      refine .read hi.1 ?_
      split
      · exact .read hi.1 (.logline _ ih)
      · exact ih

theorem inventory_is (pl : Platform) (sz : IntType) (c : InvCode) : DefUnder ItemsAre (inventory pl sz c) (inventoryText pl sz c) := by
  cases c with
  | list =>
    refine ⟨_, .nil, fun m a b _ => ?_⟩
    refine Sim_bind (vnamedT_sim _ _ _ _ (.refl _)) (.refl _) ?_
    rintro b1 m1 name _ _ h1 rfl
    refine Sim_bind (vnamedT_sim _ _ _ _ h1) h1 ?_
    rintro b2 m2 mn _ _ h2 rfl
    refine Sim_bind (vnamedT_sim _ _ _ _ h2) h2 ?_
    rintro b3 m3 src _ _ h3 rfl
    refine Sim_bind (vnamedT_sim _ _ _ _ h3) h3 ?_
    rintro b4 m4 ty _ _ h4 rfl
    refine .hasErrors fun e => ?_
    cases e
    · exact .logline _ (.logline _ (.get fun w w' hw => listLoop_sim pl _ (ret := PrintsAs (inventory pl sz .list) (inventoryText pl sz .list)) (fun _ => rfl) hw))
    · exact .ret rfl
  | add =>
    refine ⟨_, .cons (owned_is _) (.cons view_is .nil), ?_⟩
    rintro m ⟨id, nm, _⟩ ⟨id', nm', _⟩ ⟨h0, hr, _⟩
    dsimp only at h0 hr
    subst h0
    refine Sim_bind (vnamedT_sim _ _ _ _ (.refl _)) (.refl _) ?_
    rintro b1 m1 amount _ k1 h1 rfl
    refine Sim_bind (vnamedT_sim _ _ _ _ h1) h1 ?_
    rintro b2 m2 ty _ k2 h2 rfl
    cases amount with
    | none => exact .ret rfl
    | some n =>
      cases ty with
      | none => exact .ret rfl
      | some t =>
        refine .get fun w w' hw => .set (hw.append (.cons ⟨?_, rfl, rfl, rfl, rfl⟩ .nil)) (.ret rfl)
        exact read_keeps (k1.trans (k2.trans h2)) hr

/-! ## The entities -/

variable {R R' : Type}

theorem captureThen_sim {ret : Mem → R → R' → Prop} {base m : Mem} {k : Bytes → Option Entity → VProg (Entities Ref) EntCode Nat R}
    {k' : Bytes → Option Entity → Prog (Entities Bytes) EntCode Nat R'} (h : ∀ t e, Sim EntitiesAre ret base m (k t e) (k' t e)) :
    Sim EntitiesAre ret base m (captureThen k) (captureThenText k') := by
  refine .captured fun i => .get fun w w' hw => ?_
  rcases hw.2.get i with ⟨h1, h2⟩ | ⟨r, t, h1, h2, h3⟩
  · rw [h1, h2]
    exact .ub _
  · rw [h1, h2]
    dsimp only
    rw [hw.1]
    split
    · exact h _ _
    · exact .read h3 (h _ _)

theorem fieldGet_sim (f : Field) {ret : Mem → Bytes → Bytes → Prop} (hr : ∀ m t, ret m t t) {base m : Mem} :
    Sim EntitiesAre ret base m (fieldGet f) (fieldGetText f) := by
  refine captureThen_sim fun t e => ?_
  cases e with
  | none => exact .ub _
  | some e => exact .ret (hr _ _)

theorem addAll_sim {W W' C D : Type} {I : Mem → W → W' → Prop} {ret : Mem → R → R' → Prop} {base m : Mem} {k : VProg W C D R} {k' : Prog W' C D R'}
    (h : Sim I ret base m k k') (l : List (Bytes × List (C × D))) : Sim I ret base m (addAll l k) (addAllText l k') := by
  induction l with
  | nil => exact h
  | cons x l ih => exact .captured fun _ => .add _ _ ih

theorem entityLines_sim {ret : Mem → Unit → Unit → Prop} (hr : ∀ m, ret m () ()) {base m : Mem} (es : List Entity) :
    Sim EntitiesAre ret base m (es.foldr (fun e k => .logline (entityLine e) k) (.ret ()) : VProg (Entities Ref) EntCode Nat Unit)
      (es.foldr (fun e k => .logline (entityLine e) k) (.ret ()) : Prog (Entities Bytes) EntCode Nat Unit) := by
  induction es with
  | nil => exact .ret (hr m)
  | cons e es ih => exact .logline _ ih

theorem fieldSet_sim (f : Field) {ret : Mem → Bytes → Bytes → Prop} (hr : ∀ m t, ret m t t) {base m : Mem} (v : Bytes) :
    Sim EntitiesAre ret base m
      (captureThen fun t e =>
        match e with
        | none => .ub .nullDeref
        | some _ => .get fun w => .set { w with entities := change t (f.put v) w.entities } (fieldGet f))
      (captureThenText fun t e =>
        match e with
        | none => .ub .nullDeref
        | some _ => .get fun w => .set { w with entities := change t (f.put v) w.entities } (fieldGetText f)) := by
  refine captureThen_sim fun t e => ?_
  cases e with
  | none => exact .ub _
  | some e => exact .get fun w w' hw => .set ⟨by rw [hw.1], hw.2⟩ (fieldGet_sim f hr)

theorem advanced_is (c : EntCode) : DefUnder EntitiesAre (advanced c) (advancedText c) := by
  cases c with
  | rename =>
    refine ⟨_, .cons view_is (.cons (owned_is _) .nil), ?_⟩
    rintro m ⟨r, n, _⟩ ⟨t, n', _⟩ ⟨hr, h0, _⟩
    dsimp only at h0 hr
    subst h0
    refine .captured fun _ => .get fun w w' hw => .read hr ?_
    dsimp only
    rw [hw.1]
    cases lookup t w'.entities with
    | none => exact .reportError _ (.ret rfl)
    | some e => exact .set ⟨rfl, hw.2⟩ (.ret rfl)
  | create =>
    refine ⟨_, .cons view_is (.cons view_is .nil), ?_⟩
    rintro m ⟨r, q, _⟩ ⟨t, u, _⟩ ⟨hr, hq, _⟩
    dsimp only at hr hq
    refine .captured fun _ => .get fun w w' hw => .set ⟨hw.1, hw.2.append (.cons hq .nil)⟩ (.read hr ?_)
    rw [hw.2.length]
    exact addAll_sim (.ret rfl) _
  | list =>
    refine ⟨_, .nil, fun m a b _ => .logline _ (.logline _ (.captured fun _ => .get fun w w' hw => ?_))⟩
    rw [hw.1]
    exact entityLines_sim (ret := PrintsAs (advanced .list) (advancedText .list)) (fun _ => rfl) _
  | whole => exact ⟨_, .nil, fun m a b _ => captureThen_sim fun t e => .ret rfl⟩
  | wholeSet => exact ⟨_, .cons value_is .nil, fun m a b _ => .reportError _ (captureThen_sim fun t e => .ret rfl)⟩
  | field f => exact ⟨_, .nil, fun m a b _ => fieldGet_sim f (ret := PrintsAs (advanced (.field f)) (advancedText (.field f))) (fun _ _ => rfl)⟩
  | fieldSet f =>
    cases f with
    | id => exact ⟨_, .cons value_is .nil, fun m a b _ => .reportError _ (fieldGet_sim .id (ret := PrintsAs (advanced (.fieldSet .id)) (advancedText (.fieldSet .id))) (fun _ _ => rfl))⟩
    | name =>
      refine ⟨_, .cons (owned_is _) .nil, ?_⟩
      rintro m ⟨v, _⟩ ⟨v', _⟩ ⟨h0, _⟩
      dsimp only at h0
      subst h0
      exact fieldSet_sim .name (ret := PrintsAs (advanced (.fieldSet .name)) (advancedText (.fieldSet .name))) (fun _ _ => rfl) v
    | payload =>
      refine ⟨_, .cons (owned_is _) .nil, ?_⟩
      rintro m ⟨v, _⟩ ⟨v', _⟩ ⟨h0, _⟩
      dsimp only at h0
      subst h0
      exact fieldSet_sim .payload (ret := PrintsAs (advanced (.fieldSet .payload)) (advancedText (.fieldSet .payload))) (fun _ _ => rfl) v

/-! ## Variables made by a command -/

section Variables

variable {S W C D R : Type}

/-- A call of one function object, from outside. -/
theorem execute_call {P : C → FunctorDef W C D} {ops : RegOps S C D} {catching : Bool} {fuel : Nat} {s : Sys S W C D} {i : Input} {cmd : Command C D}
    {f : Inst C D} {es : Expecteds (P f.code).params} {args : Args (P f.code).params}
    (hn : i.name ≠ []) (hf : ops.find s.reg i.name = .ok (some cmd)) (hsel : selectLoop P i.arguments.length cmd.functors = some f)
    (ha : f.id ∉ s.freed) (hc : convertArgs i.arguments (P f.code).params 0 = .ok es) (hm : anyMissing (P f.code).params es = false)
    (ht : takeValues (P f.code).params es = .ok args) :
    execute P ops catching (fuel + 1) s (.input i) = (do
      let x ← ((P f.code).body args).run ops (nested P ops catching fuel 1) f { s with calls := s.calls ++ [(0, f.id)] } ⟨i, ExecResult.empty⟩
      match (handle catching (storeReturn (P f.code) x.2.1 x.2.2).1 (storeReturn (P f.code) x.2.1 x.2.2).2).2 with
      | some e => .ok (x.1, .error e)
      | none => .ok (x.1, .ok { (handle catching (storeReturn (P f.code) x.2.1 x.2.2).1 (storeReturn (P f.code) x.2.1 x.2.2).2).1.result with
          input := (handle catching (storeReturn (P f.code) x.2.1 x.2.2).1 (storeReturn (P f.code) x.2.1 x.2.2).2).1.input })) := by
  simp only [execute, nested, Nested.exec, executeInput, executeCtx, hn, if_false, hf, Res.bind_ok, hsel, invokeFunctor, ha, hc, hm, ht,
    Bool.false_eq_true]
  cases ((P f.code).body args).run ops (nested P ops catching fuel (0 + 1)) f { s with calls := s.calls ++ [(0, f.id)] } ⟨i, ExecResult.empty⟩ with
  | ub w => rfl
  | diverge => rfl
  | ok x => rfl

/-- The changes of the registry made by `addAll`. -/
def addEvents : Nat → List (Bytes × List (C × D)) → List (RegEvent C D)
  | _, [] => []
  | next, (n, fs) :: rest => .added n (allocate next fs) :: addEvents (next + fs.length) rest

theorem run_addAllText {ops : RegOps S C D} {ne : Nested S W C D} {self : Inst C D} (r : R) (l : List (Bytes × List (C × D))) :
    ∀ {s s' : Sys S W C D} {c c' : CallCtx} {e : End R}, (addAllText l (.ret r)).run ops ne self s c = .ok (s', c', e) →
      s'.user = s.user ∧ s'.calls = s.calls ∧ s'.history = s.history ++ addEvents s.next l ∧ c' = c ∧ e = .ret r := by
  induction l with
  | nil =>
    intro s s' c c' e h
    cases h
    simp [addEvents]
  | cons x rest ih =>
    obtain ⟨n, fs⟩ := x
    intro s s' c c' e h
    simp only [addAllText, Prog.run] at h
    split at h
    · cases h
    obtain ⟨s1, h1, h2⟩ := Res.bind_eq_ok.1 h
    simp only [bindingsAdd] at h1
    obtain ⟨old, h3, h4⟩ := Res.bind_eq_ok.1 h1
    obtain ⟨reg, h5, h6⟩ := Res.bind_eq_ok.1 h4
    cases h6
    obtain ⟨u, k, hh, hc, he⟩ := ih h2
    exact ⟨u, k, by simpa [addEvents] using hh, hc, he⟩

theorem lookup_eq (t : Bytes) (l : List Entity) : lookup t l = l.find? (fun e => e.id = t) := by
  induction l with
  | nil => rfl
  | cons e rest ih =>
    by_cases h : e.id = t
    · simp [lookup, h]
    · simp [lookup, h, ih]

theorem change_eq (t : Bytes) (f : Entity → Entity) (l : List Entity) (j : Nat) (hj : l.findIdx? (fun e => e.id = t) = some j) :
    change t f l = l.modify j f := by
  induction l generalizing j with
  | nil => cases hj
  | cons e rest ih =>
    rw [List.findIdx?_cons] at hj
    by_cases h : e.id = t
    · simp [h] at hj
      subst hj
      simp [change, h]
    · simp [h] at hj
      obtain ⟨j', h1, rfl⟩ := hj
      simp [change, h, ih j' h1]

theorem lookup_change (t : Bytes) (f : Entity → Entity) (hf : ∀ e, (f e).id = e.id) (l : List Entity) :
    lookup t (change t f l) = (lookup t l).map f := by
  induction l with
  | nil => rfl
  | cons e rest ih =>
    by_cases h : e.id = t
    · simp [lookup, change, h, hf]
    · simp [lookup, change, h, ih]

theorem findIdx_none (t : Bytes) (l : List Entity) : l.findIdx? (fun e => e.id = t) = none ↔ lookup t l = none := by
  simp [lookup_eq]

theorem change_nil (t : Bytes) (f : Entity → Entity) (l : List Entity) : change t f l = [] ↔ l = [] := by
  cases l with
  | nil => simp [change]
  | cons e rest => by_cases h : e.id = t <;> simp [change, h]

/-- Running a setter. -/
theorem run_write {S : Type} {ops : RegOps S EntCode Nat} {ne : Nested S (Entities Bytes) EntCode Nat} {self : Inst EntCode Nat} {f : Field} {x t : Bytes}
    {s : Sys S (Entities Bytes) EntCode Nat} {c : CallCtx} (h1 : ∀ e, f.of (f.put x e) = x) (h2 : ∀ e, (f.put x e).id = e.id)
    (ha : self.id ∉ s.freed) (hi : s.user.ids[self.data]? = some t) :
    (captureThenText fun t e =>
      match e with
      | none => .ub .nullDeref
      | some _ => .get fun w => .set { w with entities := change t (f.put x) w.entities } (fieldGetText f)).run ops ne self s c =
      match s.user.entities.findIdx? (fun e => e.id = t) with
      | none => .ub .nullDeref
      | some j => .ok ({ s with user := { s.user with entities := s.user.entities.modify j (f.put x) } }, c, .ret x) := by
  cases hj : s.user.entities.findIdx? (fun e => e.id = t) with
  | none =>
    have hl := (findIdx_none _ _).1 hj
    by_cases he : s.user.entities = []
    · simp [captureThenText, Prog.run, ha, hi, he]
    · simp [captureThenText, Prog.run, ha, hi, he, hl]
  | some j =>
    cases hl : lookup t s.user.entities with
    | none => rw [(findIdx_none _ _).2 hl] at hj; cases hj
    | some e =>
      have he : s.user.entities ≠ [] := by
        intro h
        rw [h] at hl
        cases hl
      simp [captureThenText, Prog.run, ha, hi, he, hl, fieldGetText, change_nil, lookup_change t (f.put x) h2, h1]
      exact change_eq t _ _ j hj

end Variables

end Vw
end Coil
