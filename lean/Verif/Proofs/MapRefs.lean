import Verif.Proofs.HeapMapProg
import Verif.Spec.MapRefs

/-! # Which blocks the maps occupy -/

namespace Coil
namespace HMap
open Spec Vec Mem

/-! ## Vectors -/

section vectors
variable {α : Type}

/-- Block and capacity of a buffer. -/
def spot (b : Buf) : Option Nat × Nat := (b.ptr, b.cap)

/-- The number of blocks, and block and capacity of every variable. -/
def shape (s : State α) : Places := ⟨s.mem.heap.length, s.vars.map (·.map spot)⟩

theorem constructNext_shape {m m' : Mem α} {buf buf' : Buf} {x : α} (h : constructNext m buf x = .ok (m', buf')) :
    m'.heap.length = m.heap.length ∧ spot buf' = spot buf := by
  unfold constructNext at h
  obtain ⟨b, _, h⟩ := Res.bind_eq_ok.1 h
  obtain ⟨c, _, h⟩ := Res.bind_eq_ok.1 h
  split at h
  · cases h
    exact ⟨by simp [Mem.setCells], rfl⟩
  · cases h

theorem destructLast_shape {m m' : Mem α} {buf buf' : Buf} (h : destructLast m buf = .ok (m', buf')) :
    m'.heap.length = m.heap.length ∧ spot buf' = spot buf := by
  unfold destructLast at h
  obtain ⟨b, _, h⟩ := Res.bind_eq_ok.1 h
  obtain ⟨c, _, h⟩ := Res.bind_eq_ok.1 h
  split at h
  · cases h
  · split at h
    · cases h
      exact ⟨by simp [Mem.setCells], rfl⟩
    · cases h
    · cases h

theorem writeElem_shape {m m' : Mem α} {buf : Buf} {i : Nat} {x : α} (h : writeElem m buf i x = .ok m') :
    m'.heap.length = m.heap.length := by
  unfold writeElem at h
  obtain ⟨b, _, h⟩ := Res.bind_eq_ok.1 h
  obtain ⟨c, _, h⟩ := Res.bind_eq_ok.1 h
  split at h
  · cases h
    simp [Mem.setCells]
  · cases h
  · cases h

theorem freeBuf_shape {m m' : Mem α} {buf : Buf} (h : freeBuf m buf = .ok m') : m'.heap.length = m.heap.length := by
  unfold freeBuf at h
  split at h
  · cases h; rfl
  · obtain ⟨_, _, h⟩ := Res.bind_eq_ok.1 h
    cases h
    simp

theorem destructMany_shape {k : Nat} {m m' : Mem α} {buf buf' : Buf} (h : destructMany k m buf = .ok (m', buf')) :
    m'.heap.length = m.heap.length ∧ spot buf' = spot buf := by
  induction k generalizing m buf with
  | zero => cases h; exact ⟨rfl, rfl⟩
  | succ k ih =>
    simp only [destructMany] at h
    obtain ⟨⟨m1, b1⟩, h1, h2⟩ := Res.bind_eq_ok.1 h
    have g1 := destructLast_shape h1
    have g2 := ih h2
    exact ⟨g2.1.trans g1.1, g2.2.trans g1.2⟩

theorem moveLoop_shape {moved : α → α} {k i : Nat} {m m' : Mem α} {buf new new' : Buf}
    (h : moveLoop moved k i m buf new = .ok (m', new')) : m'.heap.length = m.heap.length ∧ spot new' = spot new := by
  induction k generalizing i m new with
  | zero => cases h; exact ⟨rfl, rfl⟩
  | succ k ih =>
    simp only [moveLoop] at h
    obtain ⟨x, _, h⟩ := Res.bind_eq_ok.1 h
    obtain ⟨⟨m1, b1⟩, h1, h⟩ := Res.bind_eq_ok.1 h
    obtain ⟨m2, h2, h⟩ := Res.bind_eq_ok.1 h
    have g1 := constructNext_shape h1
    have g2 := writeElem_shape h2
    have g3 := ih h
    exact ⟨g3.1.trans (g2.trans g1.1), g3.2.trans g1.2⟩

theorem newBuf_shape {sz : Nat} (hsz : 0 < sz) (m : Mem α) {n : Nat} (hn : n * sz < 2 ^ 64) :
    (newBuf sz m n).1.heap.length = (if n = 0 then m.heap.length else m.heap.length + 1) ∧
      spot (newBuf sz m n).2 = (if n = 0 then none else some m.heap.length, n) := by
  unfold newBuf
  rw [Nat.mod_eq_of_lt hn]
  by_cases h0 : n = 0
  · subst h0
    simp [spot]
  · have : n * sz > 0 := Nat.mul_pos (Nat.pos_of_ne_zero h0) hsz
    simp [this, h0, spot]

theorem grow_shape {sz : Nat} (hsz : 0 < sz) {moved : α → α} {m m' : Mem α} {buf buf' : Buf} {n : Nat} (hn : n * sz < 2 ^ 64) (h0 : n ≠ 0)
    (h : grow sz moved m buf n = .ok (m', buf')) : m'.heap.length = m.heap.length + 1 ∧ spot buf' = (some m.heap.length, n) := by
  have g := newBuf_shape hsz m hn
  unfold grow at h
  simp only at h
  obtain ⟨⟨m2, b2⟩, h2, h⟩ := Res.bind_eq_ok.1 h
  obtain ⟨⟨m3, b3⟩, h3, h⟩ := Res.bind_eq_ok.1 h
  obtain ⟨m4, h4, h⟩ := Res.bind_eq_ok.1 h
  cases h
  have g2 := moveLoop_shape h2
  have g3 := destructMany_shape h3
  have g4 := freeBuf_shape h4
  rw [if_neg h0, if_neg h0] at g
  exact ⟨by rw [g4, g3.1, g2.1, g.1], by rw [g2.2, g.2]⟩

theorem pushBack_shape {sz : Nat} (hsz : 0 < sz) {moved : α → α} {m m' : Mem α} {buf buf' : Buf} {x : α}
    (hf : 3 * (buf.size + 1) * sz < 2 ^ 64) (h : pushBack sz moved m buf x = .ok (m', buf')) :
    if buf.cap < buf.size + 1 then
      m'.heap.length = m.heap.length + 1 ∧ spot buf' = (some m.heap.length, max (buf.size + 1) (buf.size * 3 / 2))
    else m'.heap.length = m.heap.length ∧ spot buf' = spot buf := by
  unfold pushBack at h
  obtain ⟨⟨m1, b1⟩, h1, h2⟩ := Res.bind_eq_ok.1 h
  have g2 := constructNext_shape h2
  unfold growForOne at h1
  by_cases hc : buf.cap < buf.size + 1
  · rw [if_pos hc]
    rw [if_pos hc] at h1
    have hlt : 3 * (buf.size + 1) < 2 ^ 64 := by
      refine Nat.lt_of_le_of_lt ?_ hf
      exact Nat.le_mul_of_pos_right _ hsz
    have hnc : nextCapacity buf.size = max (buf.size + 1) (buf.size * 3 / 2) := by
      unfold nextCapacity
      rw [Nat.mod_eq_of_lt (by omega)]
      split <;> omega
    have hle : max (buf.size + 1) (buf.size * 3 / 2) ≤ 3 * (buf.size + 1) := by omega
    have g1 := grow_shape hsz (n := nextCapacity buf.size) (by
      rw [hnc]
      exact Nat.lt_of_le_of_lt (Nat.mul_le_mul_right sz hle) hf) (by rw [hnc]; omega) h1
    rw [g2.1, g2.2, g1.1, g1.2, hnc]
    exact ⟨rfl, rfl⟩
  · rw [if_neg hc]
    rw [if_neg hc] at h1
    cases h1
    exact g2

theorem copyLoop_shape {k i : Nat} {m m' : Mem α} {src new new' : Buf}
    (h : copyLoop k i m src new = .ok (m', new')) : m'.heap.length = m.heap.length ∧ spot new' = spot new := by
  induction k generalizing i m new with
  | zero => cases h; exact ⟨rfl, rfl⟩
  | succ k ih =>
    simp only [copyLoop] at h
    obtain ⟨x, _, h⟩ := Res.bind_eq_ok.1 h
    obtain ⟨⟨m1, b1⟩, h1, h⟩ := Res.bind_eq_ok.1 h
    have g1 := constructNext_shape h1
    have g3 := ih h
    exact ⟨g3.1.trans g1.1, g3.2.trans g1.2⟩

theorem copyNew_shape {sz : Nat} (hsz : 0 < sz) {m m' : Mem α} {src buf' : Buf} (hn : src.size * sz < 2 ^ 64)
    (h : copyNew sz m src = .ok (m', buf')) :
    m'.heap.length = (if src.size = 0 then m.heap.length else m.heap.length + 1) ∧
      spot buf' = (if src.size = 0 then none else some m.heap.length, src.size) := by
  have g := newBuf_shape hsz m hn
  unfold copyNew at h
  have g2 := copyLoop_shape (m := (newBuf sz m src.size).1) (new := (newBuf sz m src.size).2) h
  exact ⟨g2.1.trans g.1, g2.2.trans g.2⟩

theorem destroy_shape {m m' : Mem α} {buf : Buf} (h : Vec.destroy m buf = .ok m') : m'.heap.length = m.heap.length := by
  unfold Vec.destroy at h
  obtain ⟨⟨m1, b1⟩, h1, h2⟩ := Res.bind_eq_ok.1 h
  rw [freeBuf_shape h2, (destructMany_shape h1).1]

theorem getVar_some {s : State α} {v : Nat} {buf : Buf} (h : getVar s.vars v = .ok buf) : s.vars[v]? = some (some buf) := by
  unfold getVar at h
  split at h
  · rename_i b hb
    cases h
    exact hb
  · cases h

theorem set_same {β : Type} {l : List β} {v : Nat} {x : β} (h : l[v]? = some x) : l.set v x = l := by
  obtain ⟨hl, he⟩ := List.getElem?_eq_some_iff.1 h
  rw [← he, List.set_getElem_self hl]

/-- Statements that keep all blocks. -/
theorem onVar_shape {s s' : State α} {v : Nat} {f : Mem α → Buf → Res (Mem α × Buf)} (h : onVar s v f = .ok s')
    (hf : ∀ buf m' buf', f s.mem buf = .ok (m', buf') → m'.heap.length = s.mem.heap.length ∧ spot buf' = spot buf) :
    shape s' = shape s := by
  unfold onVar at h
  obtain ⟨buf, h1, h⟩ := Res.bind_eq_ok.1 h
  obtain ⟨⟨m', buf'⟩, h2, h⟩ := Res.bind_eq_ok.1 h
  cases h
  have g := hf buf m' buf' h2
  have hv := getVar_some h1
  simp only [shape, g.1, List.map_set, Option.map_some, g.2, Places.mk.injEq, true_and]
  apply set_same
  simp [hv]

theorem write_shape {sz : Nat} {moved : α → α} {d : α} {s s' : State α} {v i : Nat} {x : α}
    (h : Vec.step sz moved d s (.write v i x) = .ok s') : shape s' = shape s := by
  simp only [Vec.step] at h
  refine onVar_shape h ?_
  intro buf m' buf' h1
  obtain ⟨m1, h2, h3⟩ := Res.bind_eq_ok.1 h1
  cases h3
  exact ⟨writeElem_shape h2, rfl⟩

theorem popBack_shape {sz : Nat} {moved : α → α} {d : α} {s s' : State α} {v : Nat}
    (h : Vec.step sz moved d s (.popBack v) = .ok s') : shape s' = shape s :=
  onVar_shape h (fun _ _ _ h1 => destructLast_shape h1)

theorem clear_shape {sz : Nat} {moved : α → α} {d : α} {s s' : State α} {v : Nat}
    (h : Vec.step sz moved d s (.clear v) = .ok s') : shape s' = shape s :=
  onVar_shape h (fun _ _ _ h1 => destructMany_shape h1)

end vectors

/-! ## Maps -/

variable {K V : Type} {c : Cfg K V}

/-- The node vectors keep their blocks. -/
def Keeps (h : HState K V) (x : Res (HState K V)) : Prop := ∀ h', x = .ok h' → shape h'.nodes = shape h.nodes

theorem Keeps.refl (h : HState K V) : Keeps h (.ok h) := by
  intro h' e
  cases e
  rfl

theorem Keeps.bind {h : HState K V} {x : Res (HState K V)} {f : HState K V → Res (HState K V)} (hx : Keeps h x)
    (hf : ∀ h1, x = .ok h1 → Keeps h1 (f h1)) : Keeps h (x >>= f) := by
  intro h' e
  obtain ⟨h1, e1, e2⟩ := Res.bind_eq_ok.1 e
  rw [hf h1 e1 h' e2, hx h1 e1]

theorem Keeps.read {β : Type} {h : HState K V} {x : Res β} {f : β → Res (HState K V)}
    (hf : ∀ b, x = .ok b → Keeps h (f b)) : Keeps h (x >>= f) := by
  intro h' e
  obtain ⟨b, e1, e2⟩ := Res.bind_eq_ok.1 e
  exact hf b e1 h' e2

theorem onBuckets_keeps (h : HState K V) (op : Op (Option Nat)) : Keeps h (onBuckets c h op) := by
  intro h' e
  unfold onBuckets at e
  obtain ⟨s, e1, e2⟩ := Res.bind_eq_ok.1 e
  cases e2
  rfl

theorem write_keeps (h : HState K V) (v i : Nat) (x : UNode K V) : Keeps h (onNodes c h (.write v i x)) := by
  intro h' e
  unfold onNodes at e
  obtain ⟨s, e1, e2⟩ := Res.bind_eq_ok.1 e
  cases e2
  exact write_shape e1

theorem popBack_keeps (h : HState K V) (v : Nat) : Keeps h (onNodes c h (.popBack v)) := by
  intro h' e
  unfold onNodes at e
  obtain ⟨s, e1, e2⟩ := Res.bind_eq_ok.1 e
  cases e2
  exact popBack_shape e1

theorem clearNodes_keeps (h : HState K V) (v : Nat) : Keeps h (onNodes c h (.clear v)) := by
  intro h' e
  unfold onNodes at e
  obtain ⟨s, e1, e2⟩ := Res.bind_eq_ok.1 e
  cases e2
  exact clear_shape e1

theorem modifyNode_keeps (h : HState K V) (v i : Nat) (f : UNode K V → UNode K V) : Keeps h (modifyNode c h v i f) :=
  Keeps.read (fun _ _ => write_keeps h v i _)

theorem writeBucket_keeps (h : HState K V) (v : Nat) (b x : Option Nat) : Keeps h (writeBucket c h v b x) := by
  unfold writeBucket
  cases b with
  | none => intro h' e; cases e
  | some b => exact onBuckets_keeps h _

theorem insertLoop_keeps (v new fuel i : Nat) (h : HState K V) : Keeps h (insertLoop c v new fuel i h) := by
  induction fuel generalizing i with
  | zero => intro h' e; cases e
  | succ fuel ih =>
    simp only [insertLoop]
    refine Keeps.read (fun nd _ => ?_)
    cases nd.next with
    | none => exact (modifyNode_keeps h v i _).bind (fun h1 _ => modifyNode_keeps h1 v new _)
    | some j => exact ih j

theorem insertNode_keeps (h : HState K V) (v new : Nat) : Keeps h (insertNode c h v new) := by
  unfold insertNode
  refine Keeps.read (fun nd _ => Keeps.read (fun b _ => ?_))
  refine (modifyNode_keeps h v new _).bind (fun h1 _ => Keeps.read (fun first _ => ?_))
  cases first with
  | none => exact onBuckets_keeps h1 _
  | some f => exact Keeps.read (fun n _ => insertLoop_keeps v new _ f h1)

theorem resetLoop_keeps (v count i : Nat) (h : HState K V) : Keeps h (resetLoop c v count i h) := by
  induction count generalizing i h with
  | zero => exact Keeps.refl h
  | succ count ih => exact (onBuckets_keeps h _).bind (fun h1 _ => ih (i + 1) h1)

theorem resetBuckets_keeps (h : HState K V) (v : Nat) : Keeps h (resetBuckets c h v) :=
  Keeps.read (fun n _ => resetLoop_keeps v n 0 h)

theorem rehashLoop_keeps (v count i : Nat) (h : HState K V) : Keeps h (rehashLoop c v count i h) := by
  induction count generalizing i h with
  | zero => exact Keeps.refl h
  | succ count ih => exact (insertNode_keeps h v i).bind (fun h1 _ => ih (i + 1) h1)

theorem rehash_keeps (h : HState K V) (v n : Nat) : Keeps h (rehash c h v n) := by
  unfold rehash
  refine (onBuckets_keeps h _).bind (fun h1 _ => (resetBuckets_keeps h1 v).bind (fun h2 _ => ?_))
  exact Keeps.read (fun count _ => rehashLoop_keeps v count 0 h2)

theorem growIfNeeded_keeps (h : HState K V) (v : Nat) : Keeps h (growIfNeeded c h v) := by
  unfold growIfNeeded
  refine Keeps.read (fun size _ => Keeps.read (fun n _ => ?_))
  split
  · exact rehash_keeps h v _
  · exact Keeps.refl h

theorem linkBefore_keeps (h : HState K V) (v : Nat) (nd : UNode K V) (x : Option Nat) : Keeps h (linkBefore c h v nd x) := by
  unfold linkBefore
  cases nd.prev with
  | some p => exact modifyNode_keeps h v p _
  | none => exact writeBucket_keeps h v _ _

theorem linkAfter_keeps (h : HState K V) (v : Nat) (nd : UNode K V) (x : Option Nat) : Keeps h (linkAfter c h v nd x) := by
  unfold linkAfter
  cases nd.next with
  | some q => exact modifyNode_keeps h v q _
  | none => exact Keeps.refl h

theorem relinkNext_keeps (h : HState K V) (v : Nat) (nd : UNode K V) (i : Nat) : Keeps h (relinkNext c h v nd i) := by
  unfold relinkNext
  split
  · exact linkAfter_keeps h v nd _
  · exact Keeps.refl h

theorem unlink_keeps (h : HState K V) (v i : Nat) : Keeps h (unlink c h v i) := by
  unfold unlink
  refine Keeps.read (fun e _ => (linkBefore_keeps h v e _).bind (fun h1 _ => Keeps.read (fun e1 _ => ?_)))
  exact (linkAfter_keeps h1 v e1 _).bind (fun h2 _ => modifyNode_keeps h2 v i _)

theorem exchange_keeps (h : HState K V) (v i j : Nat) : Keeps h (exchangeNodes c h v i j) := by
  unfold exchangeNodes
  refine Keeps.read (fun e _ => (write_keeps h v i _).bind (fun h1 _ => Keeps.read (fun nd _ => ?_)))
  refine (write_keeps h1 v j _).bind (fun h2 _ => (write_keeps h2 v i _).bind (fun h3 _ => write_keeps h3 v j _))

theorem fillHole_keeps (h : HState K V) (v i : Nat) : Keeps h (fillHole c h v i) := by
  unfold fillHole
  refine Keeps.read (fun n _ => ?_)
  split
  · refine Keeps.read (fun l _ => (linkBefore_keeps h v l _).bind (fun h1 _ => Keeps.read (fun l1 _ => ?_)))
    refine (relinkNext_keeps h1 v l1 i).bind (fun h2 _ => (exchange_keeps h2 v i _).bind (fun h3 _ => popBack_keeps h3 v))
  · exact popBack_keeps h v

theorem erase_keeps [DecidableEq K] (h : HState K V) (v : Nat) (k : K) : Keeps h (erase c h v k) := by
  unfold erase
  refine Keeps.read (fun o _ => ?_)
  cases o with
  | none => exact Keeps.refl h
  | some i => exact (unlink_keeps h v i).bind (fun h1 _ => fillHole_keeps h1 v i)

theorem clear_keeps (h : HState K V) (v : Nat) : Keeps h (clear c h v) :=
  (clearNodes_keeps h v).bind (fun h1 _ => resetBuckets_keeps h1 v)

theorem placeOf_shape {α : Type} {s : State α} {v : Nat} {buf : Buf} (h : s.vars[v]? = some (some buf)) :
    placeOf (shape s) v = some (spot buf) := by
  simp [placeOf, shape, h]

theorem entriesOf_live {ms : Lmaps K V} {e : Maps K V} (hh : Holding c ms e) {v : Nat} {m : UMap K V} (hv : ms[v]? = some (some m)) :
    (entriesOf e v).length = m.nodes.length ∧ m.entries = entriesOf e v := by
  cases hc : contentOf e v with
  | none =>
    have := (hh.dead hc).1
    rw [hv] at this
    simp at this
  | some x =>
    obtain ⟨m', g1, g2, g3, g4⟩ := hh.live hc
    rw [hv] at g1
    cases g1
    cases x with
    | none =>
      cases g4
      simp [entriesOf, hc, Content.entries, UMap.entries]
    | some p =>
      obtain ⟨ph, l⟩ := p
      obtain ⟨_, a2, _⟩ := g4
      subst a2
      simp [entriesOf, hc, Content.entries, UMap.entries]

theorem step_shape [DecidableEq K] (hN : 0 < c.nodeSize) (hB : 0 < c.indexSize) {h h' : HState K V} {ms : Lmaps K V} {e e' : Maps K V}
    (r : Rel c h ms) (hh : Holding c ms e) {op : MapOp K V} (hf : LFits c ms op) (hm : mapsStep e op = some e')
    (hs : step c h op = .ok h') : shape h'.nodes = placesStep e (shape h.nodes) op := by
  have node : ∀ {h1 h2 : HState K V} {o : Op (UNode K V)}, onNodes c h1 o = .ok h2 →
      Vec.step c.nodeSize c.moved c.spare h1.nodes o = .ok h2.nodes := by
    intro h1 h2 o e
    unfold onNodes at e
    obtain ⟨s, e1, e2⟩ := Res.bind_eq_ok.1 e
    cases e2
    exact e1
  have same : ∀ {h1 : HState K V} {o : Op (Option Nat)}, onBuckets c h o = .ok h1 → h1.nodes = h.nodes := by
    intro h1 o e
    unfold onBuckets at e
    obtain ⟨s, e1, e2⟩ := Res.bind_eq_ok.1 e
    cases e2
    rfl
  have copyFits : ∀ {src : Nat} {sb : Buf}, getVar h.nodes.vars src = .ok sb → sb.size * c.nodeSize < 2 ^ 64 ∧ (entriesOf e src).length = sb.size := by
    intro src sb hsb
    have hv := getVar_some hsb
    obtain ⟨l, hl, ho⟩ := r.nodes.own src sb hv
    have := ho.fits
    have hsz := ho.size
    refine ⟨Nat.lt_of_le_of_lt (Nat.mul_le_mul_right _ (by omega)) this, ?_⟩
    rw [List.getElem?_map] at hl
    cases hms : ms[src]? with
    | none => rw [hms] at hl; simp at hl
    | some o =>
      rw [hms] at hl
      cases o with
      | none => simp at hl
      | some m =>
        simp at hl
        rw [(entriesOf_live hh hms).1, hsz.1, hl]
  cases op with
  | create n =>
    simp only [step] at hs
    obtain ⟨h1, e1, hs⟩ := Res.bind_eq_ok.1 hs
    obtain ⟨h2, e2, hs⟩ := Res.bind_eq_ok.1 hs
    have g2 := node e2
    rw [same e1] at g2
    rw [rehash_keeps h2 _ _ h' hs]
    simp only [Vec.step, newBuf] at g2
    simp at g2
    rw [← g2]
    simp [placesStep, shape, spot]
  | copyNew src =>
    simp only [step] at hs
    obtain ⟨h1, e1, hs⟩ := Res.bind_eq_ok.1 hs
    have g2 := node hs
    rw [same e1] at g2
    simp only [Vec.step] at g2
    obtain ⟨sb, k1, g2⟩ := Res.bind_eq_ok.1 g2
    obtain ⟨⟨m', buf'⟩, k2, g2⟩ := Res.bind_eq_ok.1 g2
    obtain ⟨f1, f2⟩ := copyFits k1
    have k3 := copyNew_shape hN f1 k2
    simp at g2
    rw [← g2]
    simp only [shape, placesStep, copyPlace, f2, k3.1, List.map_append, List.map_cons, List.map_nil, Option.map_some, k3.2]
    split
    · rename_i h0
      rw [h0]
    · rfl
  | moveNew src =>
    simp only [step] at hs
    obtain ⟨h1, e1, hs⟩ := Res.bind_eq_ok.1 hs
    have g2 := node hs
    rw [same e1] at g2
    simp only [Vec.step] at g2
    obtain ⟨sb, k1, g2⟩ := Res.bind_eq_ok.1 g2
    simp at g2
    rw [← g2]
    have := placeOf_shape (getVar_some k1)
    simp only [placesStep, this]
    simp [shape, List.map_set, spot, Buf.null]
  | copyAssign dst src =>
    simp only [step] at hs
    obtain ⟨h1, e1, hs⟩ := Res.bind_eq_ok.1 hs
    have g2 := node hs
    rw [same e1] at g2
    simp only [Vec.step] at g2
    obtain ⟨sb, k1, g2⟩ := Res.bind_eq_ok.1 g2
    obtain ⟨⟨m', buf'⟩, k2, g2⟩ := Res.bind_eq_ok.1 g2
    obtain ⟨db, k4, g2⟩ := Res.bind_eq_ok.1 g2
    obtain ⟨m2, k5, g2⟩ := Res.bind_eq_ok.1 g2
    obtain ⟨f1, f2⟩ := copyFits k1
    have k3 := copyNew_shape hN f1 k2
    have k6 := destroy_shape k5
    simp at g2
    rw [← g2]
    simp only [shape, placesStep, copyPlace, f2, k6, k3.1, List.map_set, Option.map_some, k3.2]
    split
    · rename_i h0
      rw [h0]
    · rfl
  | moveAssign dst src =>
    simp only [step] at hs
    obtain ⟨h1, e1, hs⟩ := Res.bind_eq_ok.1 hs
    have g2 := node hs
    rw [same e1] at g2
    simp only [Vec.step] at g2
    obtain ⟨sb, k1, g2⟩ := Res.bind_eq_ok.1 g2
    obtain ⟨db, k2, g2⟩ := Res.bind_eq_ok.1 g2
    simp at g2
    rw [← g2]
    simp only [placesStep, placeOf_shape (getVar_some k1), placeOf_shape (getVar_some k2)]
    simp [shape, List.map_set]
  | on v op =>
    cases op with
    | erase k => exact erase_keeps h v k h' hs
    | clear => exact clear_keeps h v h' hs
    | put k x =>
      cases hc : contentOf e v with
      | none => simp [mapsStep, hc] at hm
      | some y =>
        obtain ⟨m, hv, _, _, hold⟩ := hh.live hc
        cases y with
        | none => simp [mapsStep, hc, contentStep] at hm
        | some p =>
        obtain ⟨ph, l⟩ := p
        obtain ⟨good, hent, hnd⟩ := hold
        obtain ⟨buf, b1, b2, b3, b4⟩ := r.nodes.getVar (seqOf_map hv)
        have hel := entriesOf_live hh hv
        have hkeys : k ∈ (entriesOf e v).map Prod.fst ↔ ∃ (i : Nat) (nd : UNode K V), m.nodes[i]? = some nd ∧ nd.key = k := by
          rw [← hel.2]
          exact UMap.mem_keys
        simp only [step, insertOrAssign] at hs
        obtain ⟨o, e1, hs⟩ := Res.bind_eq_ok.1 hs
        have hfi : UMap.findIndex c.hash m k = .ok o := by
          have := findIndex_sim r hv k
          rw [e1] at this
          obtain ⟨_, g1, rfl⟩ := this.ok_left
          exact g1
        cases o with
        | some i =>
          have hk : k ∈ (entriesOf e v).map Prod.fst := by
            rcases UMap.findIndex_spec good.wf k with ⟨j, nd, g1, g2, g3⟩ | ⟨g1, _⟩
            · exact hkeys.2 ⟨j, nd, g2, g3⟩
            · rw [g1] at hfi
              cases hfi
          simp only [placesStep]
          rw [if_neg (fun hx => hx.1 hk)]
          exact modifyNode_keeps h v i _ h' hs
        | none =>
          have hk : k ∉ (entriesOf e v).map Prod.fst := by
            rcases UMap.findIndex_spec good.wf k with ⟨j, nd, g1, g2, g3⟩ | ⟨_, g2⟩
            · rw [g1] at hfi
              cases hfi
            · intro hx
              obtain ⟨i, nd, a1, a2⟩ := hkeys.1 hx
              exact g2 i nd a1 a2
          simp only at hs
          obtain ⟨h1, k1, hs⟩ := Res.bind_eq_ok.1 hs
          obtain ⟨new, k2, hs⟩ := Res.bind_eq_ok.1 hs
          obtain ⟨h2, k3, hs⟩ := Res.bind_eq_ok.1 hs
          have s1 := growIfNeeded_keeps h v h1 k1
          have s3 := insertNode_keeps h2 v new h' hs
          have g3 := node k3
          obtain ⟨f1, f2⟩ := hf m hv
          have hsim := growIfNeeded_sim hN hB r hv f2
          rw [k1] at hsim
          obtain ⟨m1, k4, r1⟩ := hsim.ok_left
          have hv1 := get_set_self (m' := m1) hv
          obtain ⟨buf1, d1, d2, d3, d4⟩ := r1.nodes.getVar (seqOf_map hv1)
          have hlen := growIfNeeded_length k4
          have hsz1 : buf1.size = m.nodes.length := by rw [d4.size.1, hlen]
          have hspot : spot buf1 = spot buf := by
            have a := placeOf_shape d2
            rw [s1, placeOf_shape b2] at a
            exact (Option.some.inj a).symm
          have hcap : buf1.cap = buf.cap := congrArg Prod.snd hspot
          simp only [Vec.step, onVar] at g3
          rw [d1] at g3
          simp only [Res.bind_ok] at g3
          obtain ⟨⟨m2, buf2⟩, k5, g3⟩ := Res.bind_eq_ok.1 g3
          simp at g3
          have sp := pushBack_shape hN (by rw [hsz1]; exact f1) k5
          rw [s3, ← g3]
          simp only [placesStep, placeOf_shape b2, Option.getD_some, hel.1]
          have hcap' : (spot buf).2 = buf.cap := rfl
          rw [hcap']
          have hvars : h1.nodes.vars.map (·.map spot) = h.nodes.vars.map (·.map spot) := congrArg Places.place s1
          have hheap : h1.nodes.mem.heap.length = h.nodes.mem.heap.length := congrArg Places.next s1
          rw [hcap, hsz1] at sp
          by_cases hx : buf.cap < m.nodes.length + 1
          · rw [if_pos hx] at sp
            rw [if_pos ⟨hk, hx⟩]
            simp only [shape, List.map_set, Option.map_some, sp.1, sp.2, hvars, hheap]
          · rw [if_neg hx] at sp
            rw [if_neg (fun y => hx y.2)]
            simp only [shape, List.map_set, Option.map_some, sp.1, sp.2, hvars, hheap, hspot, Places.mk.injEq, true_and]
            apply set_same
            simp [b2]
  | destroy v =>
    simp only [step] at hs
    obtain ⟨h1, e1, hs⟩ := Res.bind_eq_ok.1 hs
    have g2 := node e1
    simp only [Vec.step] at g2
    obtain ⟨sb, k1, g2⟩ := Res.bind_eq_ok.1 g2
    obtain ⟨m', k2, g2⟩ := Res.bind_eq_ok.1 g2
    rw [onBuckets_keeps h1 _ h' hs]
    simp at g2
    rw [← g2]
    simp [shape, placesStep, destroy_shape k2, List.map_set]

theorem lFits_of [DecidableEq K] {ms : Lmaps K V} {n : Nat} (ha : AtMost n ms) {op : MapOp K V} {ops : List (MapOp K V)}
    (hf : 3 * (n + (op :: ops).length + 1) * c.nodeSize < 2 ^ 64) (hg : (n + (op :: ops).length) * 2 * c.indexSize < 2 ^ 64)
    (hc : ∀ k, MapOp.create k ∈ op :: ops → k * c.indexSize < 2 ^ 64) : LFits c ms op := by
  simp only [List.length_cons] at hf hg
  cases op with
  | create k => exact hc k (by simp)
  | on v op =>
    cases op with
    | put k x =>
      intro m hm
      have hl := ha m (List.mem_iff_getElem?.2 ⟨v, hm⟩)
      constructor
      · refine Nat.lt_of_le_of_lt (Nat.mul_le_mul_right _ ?_) hf
        omega
      · refine Nat.lt_of_le_of_lt (Nat.mul_le_mul_right _ ?_) hg
        omega
    | _ => trivial
  | _ => trivial

theorem run_shape [DecidableEq K] (hN : 0 < c.nodeSize) (hB : 0 < c.indexSize) (hex : ∀ b, 0 < b → c.exceeds 1 b = false)
    {h : HState K V} {ms : Lmaps K V} {e e' : Maps K V} (r : Rel c h ms) (hh : Holding c ms e) {n : Nat} (ha : AtMost n ms)
    (ops : List (MapOp K V)) (hf : 3 * (n + ops.length + 1) * c.nodeSize < 2 ^ 64)
    (hg : (n + ops.length) * 2 * c.indexSize < 2 ^ 64) (hc : ∀ k, MapOp.create k ∈ ops → k * c.indexSize < 2 ^ 64)
    (hs : c.fixed = true ∨ MapsSafe e ops) (hm : mapsRun e ops = some e') :
    ∃ h' ms', run c h ops = .ok h' ∧ Rel c h' ms' ∧ Holding c ms' e' ∧ shape h'.nodes = placesRun e (shape h.nodes) ops := by
  induction ops generalizing h ms e n with
  | nil =>
    cases hm
    exact ⟨h, ms, rfl, r, hh, rfl⟩
  | cons op ops ih =>
    have hL := lFits_of ha hf hg hc
    simp only [mapsRun] at hm
    cases hm1 : mapsStep e op with
    | none => rw [hm1] at hm; cases hm
    | some e1 =>
      rw [hm1] at hm
      simp only [Option.bind_some] at hm
      have h1 := lstep_spec hex hh (op := op) (hs.imp id (fun h => h.1))
      rw [hm1] at h1
      obtain ⟨ms1, k1, k2⟩ := h1
      have hsim := step_prog_sim hN hB r hL
      rw [k1] at hsim
      obtain ⟨h1, g1, r1⟩ := hsim.ok_right
      have hsh := step_shape hN hB r hh hL hm1 g1
      simp only [List.length_cons] at hf hg
      obtain ⟨h', ms', a1, a2, a3, a4⟩ := ih r1 k2 (lstep_atMost ha k1)
        (by rw [show n + 1 + ops.length + 1 = n + (ops.length + 1) + 1 by omega]; exact hf)
        (by rw [show n + 1 + ops.length = n + (ops.length + 1) by omega]; exact hg)
        (fun k hk => hc k (List.mem_cons_of_mem _ hk)) (hs.imp id (fun h => h.2 e1 hm1)) hm
      refine ⟨h', ms', by simp only [run, g1, Res.bind_ok, a1], a2, a3, ?_⟩
      rw [a4, hsh]
      simp only [placesRun, hm1]

/-! ## References -/

theorem placeOf_some {α : Type} {s : State α} {v : Nat} {x : Option Nat × Nat} (h : placeOf (shape s) v = some x) :
    ∃ buf, s.vars[v]? = some (some buf) ∧ spot buf = x := by
  simp only [placeOf, shape, List.getElem?_map] at h
  cases hv : s.vars[v]? with
  | none => rw [hv] at h; simp at h
  | some o =>
    cases o with
    | none => rw [hv] at h; simp at h
    | some buf => rw [hv] at h; simp at h; exact ⟨buf, rfl, h⟩

theorem liveVar {α : Type} {ms : Lmaps K V} {f : UMap K V → List α} {v : Nat} {l : List α} (h : (ms.map (·.map f))[v]? = some (some l)) :
    ∃ m, ms[v]? = some (some m) ∧ f m = l := by
  rw [List.getElem?_map] at h
  cases hms : ms[v]? with
  | none => rw [hms] at h; simp at h
  | some o =>
    cases o with
    | none => rw [hms] at h; simp at h
    | some m => rw [hms] at h; simp at h; exact ⟨m, rfl, h⟩

theorem get_of_place {h : HState K V} {ms : Lmaps K V} {e : Maps K V} (r : Rel c h ms) (hh : Holding c ms e) {v b cap : Nat}
    (hp : placeOf (shape h.nodes) v = some (some b, cap)) (i : Nat) :
    match (entriesOf e v)[i]? with
    | some y => Ref.get h ⟨b, i⟩ = .ok y
    | none => ∃ u, Ref.get h ⟨b, i⟩ = .ub u := by
  obtain ⟨buf, h1, h2⟩ := placeOf_some hp
  obtain ⟨l, h3, h4⟩ := r.nodes.own v buf h1
  obtain ⟨m, h5, h6⟩ := liveVar h3
  have hel := (entriesOf_live hh h5).2
  rcases h4 with ⟨rfl, _⟩ | ⟨b', g1, g2, g3, g4, g5, g6⟩
  · simp [spot, Buf.null] at h2
  · have hb : b' = b := by
      simp only [spot, g1, Prod.mk.injEq, Option.some.injEq] at h2
      exact h2.1
    subst hb
    rw [← hel, UMap.entries_get, h6]
    unfold Ref.get Mem.cells
    simp only [g2]
    simp only [Res.bind_ok]
    by_cases hi : i < l.length
    · rw [List.getElem?_append_left (by simpa using hi)]
      simp only [List.getElem?_map, List.getElem?_eq_getElem hi, Option.map_some]
      rfl
    · rw [List.getElem?_append_right (by simpa using Nat.le_of_not_lt hi)]
      rw [List.getElem?_eq_none (Nat.le_of_not_lt hi)]
      simp only [Option.map_none]
      by_cases hj : i - (l.map some).length < buf.cap - l.length
      · rw [List.getElem?_replicate, if_pos hj]
        exact ⟨_, rfl⟩
      · rw [List.getElem?_replicate, if_neg hj]
        exact ⟨_, rfl⟩

theorem get_of_no_place {h : HState K V} {ms : Lmaps K V} (r : Rel c h ms) {b : Nat}
    (hp : ∀ v cap, placeOf (shape h.nodes) v ≠ some (some b, cap)) (i : Nat) : ∃ u, Ref.get h ⟨b, i⟩ = .ub u := by
  unfold Ref.get Mem.cells
  cases hb : h.nodes.mem.heap[b]? with
  | none => exact ⟨_, rfl⟩
  | some o =>
    cases o with
    | none => exact ⟨_, rfl⟩
    | some cells =>
      obtain ⟨v, buf, h1, h2⟩ := r.nodes.live b cells hb
      exact absurd (placeOf_shape h1) (by simp only [spot, h2]; exact hp v buf.cap)

theorem findRef_at [DecidableEq K] {h : HState K V} {ms : Lmaps K V} {e : Maps K V} (r : Rel c h ms) (hh : Holding c ms e) {v : Nat}
    {ph : Phase} {l : List (K × V)} (hv : contentOf e v = some (some (ph, l))) {i : Nat} {k : K} {x : V} (hi : l[i]? = some (k, x)) :
    ∃ b cap, placeOf (shape h.nodes) v = some (some b, cap) ∧ findRef c h v k = .ok (some ⟨b, i⟩) := by
  obtain ⟨m, g1, _, _, good, hent, hnd⟩ := hh.live hv
  obtain ⟨buf, b1, b2, b3, b4⟩ := r.nodes.getVar (seqOf_map g1)
  subst hent
  have hi' := hi
  rw [UMap.entries_get] at hi'
  have hne : m.nodes ≠ [] := by
    intro h0
    rw [h0] at hi'
    simp at hi'
  rcases b4 with ⟨_, h0⟩ | ⟨b, d1, _⟩
  · exact absurd h0 hne
  refine ⟨b, buf.cap, by rw [placeOf_shape b2]; simp [spot, d1], ?_⟩
  have hfi : UMap.findIndex c.hash m k = .ok (some i) := by
    rcases UMap.findIndex_spec good.wf k with ⟨j, nd, g1, g2, g3⟩ | ⟨_, g2⟩
    · rw [g1]
      have hj : m.entries[j]? = some (UMap.entry nd) := by rw [UMap.entries_get, g2]; rfl
      have hlt1 := (List.getElem?_eq_some_iff.1 hi).1
      have hlt2 := (List.getElem?_eq_some_iff.1 hj).1
      have : j = i := by
        refine (List.getElem?_inj (l := m.entries.map Prod.fst) (by simpa using hlt2) hnd).1 ?_
        simp only [List.getElem?_map, hi, hj, Option.map_some]
        exact congrArg some g3
      rw [this]
    · cases hx : m.nodes[i]? with
      | none => rw [hx] at hi'; simp at hi'
      | some nd =>
        rw [hx] at hi'
        simp only [Option.map_some, Option.some.injEq] at hi'
        exact absurd (congrArg Prod.fst hi') (g2 i nd hx)
  have hsim := findIndex_sim r g1 k
  rw [hfi] at hsim
  obtain ⟨_, a1, rfl⟩ := hsim.ok_right
  simp only [findRef, a1, Res.bind_ok, b1, d1, Mem.deref]

theorem findRef_none [DecidableEq K] {h : HState K V} {ms : Lmaps K V} {e : Maps K V} (r : Rel c h ms) (hh : Holding c ms e) {v : Nat}
    {ph : Phase} {l : List (K × V)} (hv : contentOf e v = some (some (ph, l))) {k : K} (hk : k ∉ l.map Prod.fst) :
    findRef c h v k = .ok none := by
  obtain ⟨m, g1, _, _, good, hent, hnd⟩ := hh.live hv
  subst hent
  have hfi : UMap.findIndex c.hash m k = .ok none := by
    rcases UMap.findIndex_spec good.wf k with ⟨j, nd, g1, g2, g3⟩ | ⟨g1, _⟩
    · exact absurd (UMap.mem_keys.2 ⟨j, nd, g2, g3⟩) hk
    · exact g1
  have hsim := findIndex_sim r g1 k
  rw [hfi] at hsim
  obtain ⟨_, a1, rfl⟩ := hsim.ok_right
  simp only [findRef, a1, Res.bind_ok]

/-! ## Places -/

theorem placeOf_set (p : Places) (v w : Nat) (o : Option (Option Nat × Nat)) :
    placeOf ⟨p.next, p.place.set v o⟩ w = if v = w ∧ v < p.place.length then o else placeOf p w := by
  simp only [placeOf, List.getElem?_set]
  by_cases hv : v = w
  · subst hv
    by_cases hl : v < p.place.length <;> simp [hl]
  · simp [hv]

theorem placeOf_push (p : Places) (w : Nat) (o : Option (Option Nat × Nat)) :
    placeOf ⟨p.next, p.place ++ [o]⟩ w = if w = p.place.length then o else placeOf p w := by
  simp only [placeOf]
  rcases Nat.lt_trichotomy w p.place.length with h | h | h
  · rw [List.getElem?_append_left h, if_neg (by omega)]
  · subst h; simp
  · rw [List.getElem?_eq_none (by simp; omega), if_neg (by omega), List.getElem?_eq_none (by omega)]

/-- Block `b` has been allocated and belongs to no map any more. -/
def Gone (p : Places) (b : Nat) : Prop := b < p.next ∧ ∀ v cap, placeOf p v ≠ some (some b, cap)

/-- All blocks in use have been allocated. -/
def Known (p : Places) : Prop := ∀ v b cap, placeOf p v = some (some b, cap) → b < p.next

theorem copyPlace_cases (p : Places) (n : Nat) : (n = 0 ∧ copyPlace p n = ((none, 0), p.next)) ∨
    (n ≠ 0 ∧ copyPlace p n = ((some p.next, n), p.next + 1)) := by
  unfold copyPlace
  by_cases h : n = 0
  · simp [h]
  · simp [h]

theorem placesStep_next [DecidableEq K] (e : Maps K V) (p : Places) (op : MapOp K V) : p.next ≤ (placesStep e p op).next := by
  cases op with
  | copyNew src =>
    rcases copyPlace_cases p (entriesOf e src).length with ⟨_, h⟩ | ⟨_, h⟩ <;> simp [placesStep, h]
  | copyAssign dst src =>
    rcases copyPlace_cases p (entriesOf e src).length with ⟨_, h⟩ | ⟨_, h⟩ <;> simp [placesStep, h]
  | on v op =>
    cases op with
    | put k x => simp only [placesStep]; split <;> simp
    | _ => exact Nat.le_refl _
  | _ => exact Nat.le_refl _

/-- Every place after a statement was a place before, or is new. -/
theorem placesStep_from [DecidableEq K] (e : Maps K V) (p : Places) (op : MapOp K V) {v b cap : Nat}
    (h : placeOf (placesStep e p op) v = some (some b, cap)) :
    (∃ w, placeOf p w = some (some b, cap)) ∨ (b = p.next ∧ (placesStep e p op).next = p.next + 1) := by
  cases op with
  | create n =>
    simp only [placesStep] at h
    rw [placeOf_push] at h
    split at h
    · cases h
    · exact .inl ⟨v, h⟩
  | copyNew src =>
    simp only [placesStep] at h ⊢
    have hp := placeOf_push p v (some (copyPlace p (entriesOf e src).length).1)
    have h' : placeOf ⟨p.next, p.place ++ [some (copyPlace p (entriesOf e src).length).1]⟩ v = some (some b, cap) := h
    rw [hp] at h'
    split at h'
    · rcases copyPlace_cases p (entriesOf e src).length with ⟨_, g⟩ | ⟨_, g⟩
      · rw [g] at h'; cases h'
      · rw [g] at h'; cases h'; exact .inr ⟨rfl, by rw [g]⟩
    · exact .inl ⟨v, h'⟩
  | moveNew src =>
    simp only [placesStep] at h
    have hp := placeOf_push ⟨p.next, p.place.set src (some (none, 0))⟩ v (placeOf p src)
    rw [hp] at h
    split at h
    · exact .inl ⟨src, h⟩
    · rw [placeOf_set] at h
      split at h
      · cases h
      · exact .inl ⟨v, h⟩
  | copyAssign dst src =>
    simp only [placesStep] at h ⊢
    have hp := placeOf_set p dst v (some (copyPlace p (entriesOf e src).length).1)
    have h' : placeOf ⟨p.next, p.place.set dst (some (copyPlace p (entriesOf e src).length).1)⟩ v = some (some b, cap) := h
    rw [hp] at h'
    split at h'
    · rcases copyPlace_cases p (entriesOf e src).length with ⟨_, g⟩ | ⟨_, g⟩
      · rw [g] at h'; cases h'
      · rw [g] at h'; cases h'; exact .inr ⟨rfl, by rw [g]⟩
    · exact .inl ⟨v, h'⟩
  | moveAssign dst src =>
    simp only [placesStep] at h
    have hp := placeOf_set ⟨p.next, p.place.set src (placeOf p dst)⟩ dst v (placeOf p src)
    rw [hp] at h
    split at h
    · exact .inl ⟨src, h⟩
    · rw [placeOf_set] at h
      split at h
      · exact .inl ⟨dst, h⟩
      · exact .inl ⟨v, h⟩
  | on v' op =>
    cases op with
    | put k x =>
      simp only [placesStep] at h ⊢
      split at h
      · rename_i hc
        rw [if_pos hc]
        have h' : placeOf ⟨p.next, p.place.set v' (some (some p.next, max ((entriesOf e v').length + 1) ((entriesOf e v').length * 3 / 2)))⟩ v
          = some (some b, cap) := h
        rw [placeOf_set] at h'
        split at h'
        · cases h'
          exact .inr ⟨rfl, rfl⟩
        · exact .inl ⟨v, h'⟩
      · exact .inl ⟨v, h⟩
    | _ => exact .inl ⟨v, h⟩
  | destroy v' =>
    simp only [placesStep] at h
    rw [placeOf_set] at h
    split at h
    · cases h
    · exact .inl ⟨v, h⟩

theorem gone_step [DecidableEq K] (e : Maps K V) {p : Places} (op : MapOp K V) {b : Nat} (h : Gone p b) : Gone (placesStep e p op) b := by
  refine ⟨Nat.lt_of_lt_of_le h.1 (placesStep_next e p op), ?_⟩
  intro v cap hv
  rcases placesStep_from e p op hv with ⟨w, hw⟩ | ⟨hb, _⟩
  · exact h.2 w cap hw
  · have := h.1
    omega

theorem gone_run [DecidableEq K] (ops : List (MapOp K V)) {e : Maps K V} {p : Places} {b : Nat} (h : Gone p b) : Gone (placesRun e p ops) b := by
  induction ops generalizing e p with
  | nil => exact h
  | cons op ops ih =>
    simp only [placesRun]
    cases mapsStep e op with
    | none => exact h
    | some e' => exact ih (gone_step e op h)

theorem known_step [DecidableEq K] (e : Maps K V) {p : Places} (op : MapOp K V) (h : Known p) : Known (placesStep e p op) := by
  intro v b cap hv
  rcases placesStep_from e p op hv with ⟨w, hw⟩ | ⟨hb, hn⟩
  · exact Nat.lt_of_lt_of_le (h w b cap hw) (placesStep_next e p op)
  · omega

theorem known_run [DecidableEq K] (ops : List (MapOp K V)) {e : Maps K V} {p : Places} (h : Known p) : Known (placesRun e p ops) := by
  induction ops generalizing e p with
  | nil => exact h
  | cons op ops ih =>
    simp only [placesRun]
    cases mapsStep e op with
    | none => exact h
    | some e' => exact ih (known_step e op h)

theorem mapsRun_append [DecidableEq K] (a b : List (MapOp K V)) (e : Maps K V) :
    mapsRun e (a ++ b) = (mapsRun e a).bind (fun e' => mapsRun e' b) := by
  induction a generalizing e with
  | nil => rfl
  | cons op a ih =>
    simp only [List.cons_append, mapsRun]
    cases mapsStep e op with
    | none => rfl
    | some e1 => simp only [Option.bind_some, ih]

theorem placesRun_append [DecidableEq K] (a b : List (MapOp K V)) {e e' : Maps K V} (h : mapsRun e a = some e') (p : Places) :
    placesRun e p (a ++ b) = placesRun e' (placesRun e p a) b := by
  induction a generalizing e p with
  | nil => cases h; rfl
  | cons op a ih =>
    simp only [mapsRun] at h
    simp only [List.cons_append, placesRun]
    cases hm : mapsStep e op with
    | none => rw [hm] at h; cases h
    | some e1 =>
      rw [hm] at h
      exact ih h _

theorem run_append [DecidableEq K] (a b : List (MapOp K V)) (h : HState K V) : run c h (a ++ b) = (run c h a >>= fun h' => run c h' b) := by
  induction a generalizing h with
  | nil => rfl
  | cons op a ih =>
    simp only [List.cons_append, run]
    cases step c h op with
    | ok h1 => simp only [Res.bind_ok, ih]
    | ub u => rfl
    | diverge => rfl

theorem total_sizes {α : Type} {sz : Nat} {s : State α} {e : Seqs α} (h : Inv sz s e) :
    total e = (s.vars.map (fun o => (o.map Buf.size).getD 0)).sum := by
  unfold total
  congr 1
  apply List.ext_getElem?
  intro v
  simp only [List.getElem?_map]
  cases hv : s.vars[v]? with
  | none =>
    have : e[v]? = none := by
      rw [List.getElem?_eq_none_iff] at hv ⊢
      rw [← h.len]
      exact hv
    rw [this]
    rfl
  | some o =>
    cases o with
    | none => rw [h.dead v hv]; rfl
    | some buf =>
      obtain ⟨l, h1, h2⟩ := h.own v buf hv
      rw [h1]
      simp [h2.size.1]

end HMap
end Coil
