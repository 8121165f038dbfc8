import Verif.Proofs.Views
import Verif.Model.ViewsLift

/-!
# Functions on texts as functions on views

The simulation for the functions of `Model/ViewsLift.lean`.
-/

namespace Coil
namespace Vw
open Spec

variable {S W C D : Type} {R : Type}

variable {R' : Type} {ret : Mem → R → R' → Prop} {base m : Mem} {p : Prog W C D R'}

theorem readsThen_sim {rs : List Ref} {ts : List Bytes} (h : m.readList rs = .ok ts) {k : List Bytes → VProg W C D R}
    (hk : Sim SameState ret base m (k ts) p) : Sim SameState ret base m (readsThen rs k) p := by
  induction rs generalizing ts k with
  | nil => cases h; exact hk
  | cons r rs ih =>
    simp only [Mem.readList, Res.bind_eq_ok] at h
    obtain ⟨t, h1, ts', h2, h3⟩ := h
    cases h3
    exact .read h1 (ih h2 hk)

theorem readValuesThen_sim {vs : List (GValue Ref)} {xs : List Value} (h : m.readValues vs = .ok xs) {k : List Value → VProg W C D R}
    (hk : Sim SameState ret base m (k xs) p) : Sim SameState ret base m (readValuesThen vs k) p := by
  induction vs generalizing xs k with
  | nil => cases h; exact hk
  | cons v vs ih =>
    simp only [Mem.readValues, Mem.readValue, Res.bind_eq_ok] at h
    obtain ⟨t, ⟨ts, h1, h1'⟩, ts', h2, h3⟩ := h
    cases h1'
    cases h3
    exact readsThen_sim h1 (ih h2 hk)

theorem readNamedThen_sim {vs : List (GNamed Ref)} {xs : List Named} (h : m.readNamed vs = .ok xs) {k : List Named → VProg W C D R}
    (hk : Sim SameState ret base m (k xs) p) : Sim SameState ret base m (readNamedThen vs k) p := by
  induction vs generalizing xs k with
  | nil => cases h; exact hk
  | cons v vs ih =>
    simp only [Mem.readNamed, Mem.readOne, Mem.readValue, Res.bind_eq_ok] at h
    obtain ⟨t, ⟨y, h1, z, ⟨ts, h4, h5⟩, h6⟩, ts', h2, h3⟩ := h
    cases h5
    cases h6
    cases h3
    exact .read h1 (readsThen_sim h4 (ih h2 hk))

theorem readInputThen_sim {i : GInput Ref} {x : Input} (h : m.readInput i = .ok x) {k : Input → VProg W C D R} (hk : Sim SameState ret base m (k x) p) :
    Sim SameState ret base m (readInputThen i k) p := by
  obtain ⟨h1, h2, h3⟩ := readInput_parts h
  exact .read h1 (readValuesThen_sim h2 (readNamedThen_sim h3 hk))

theorem outThen_sim {o : VOut} {o' : ExecOut} (h : OutIs m o o') {k : ExecOut → VProg W C D R} (hk : Sim SameState ret base m (k o') p) :
    Sim SameState ret base m (outThen o k) p := by
  cases h with
  | exn e => exact hk
  | @ok v r hr =>
    obtain ⟨h1, h2, h3, h4⟩ := hr
    show Sim SameState ret base m (readInputThen v.input fun i => k (.ok ⟨i, v.errors, v.returnValue, v.output⟩)) p
    refine readInputThen_sim h1 ?_
    obtain ⟨a, b, c, d⟩ := r
    dsimp only at h2 h3 h4 ⊢
    subst h2 h3 h4
    exact hk

theorem holds_make (m : Mem) (t : Bytes) : Holds (m.make t) m.length t := by
  simp [Holds, Mem.make]

theorem read_make (m : Mem) (t : Bytes) : (m.make t).read ⟨m.length, 0, t.length⟩ = .ok t := by
  have := holds_make m t
  unfold Holds at this
  unfold Mem.read
  split
  · rename_i h0
    rw [List.length_eq_zero_iff.1 h0]
  · simp [this]

theorem makeThen_sim {t : Bytes} {k : Ref → VProg W C D R} (hk : ∀ m' r, Keeps m m' → m'.read r = .ok t → Sim SameState ret base m' (k r) p) :
    Sim SameState ret base m (makeThen t k) p :=
  .make t (hk _ _ (keeps_make (.refl _) t) (read_make m t))

theorem makesThen_sim {ts : List Bytes} {k : List Ref → VProg W C D R}
    (hk : ∀ m' rs, Keeps m m' → m'.readList rs = .ok ts → Sim SameState ret base m' (k rs) p) : Sim SameState ret base m (makesThen ts k) p := by
  induction ts generalizing m k with
  | nil => exact hk m [] (.refl _) rfl
  | cons t ts ih =>
    refine makeThen_sim fun m1 r h1 h2 => ih fun m2 rs h3 h4 => hk m2 _ (h1.trans h3) ?_
    simp [Mem.readList, read_keeps h3 h2, h4]

theorem makeValuesThen_sim {xs : List Value} {k : List (GValue Ref) → VProg W C D R}
    (hk : ∀ m' vs, Keeps m m' → m'.readValues vs = .ok xs → Sim SameState ret base m' (k vs) p) : Sim SameState ret base m (makeValuesThen xs k) p := by
  induction xs generalizing m k with
  | nil => exact hk m [] (.refl _) rfl
  | cons x xs ih =>
    refine makesThen_sim fun m1 rs h1 h2 => ih fun m2 vs h3 h4 => hk m2 _ (h1.trans h3) ?_
    simp [Mem.readValues, Mem.readValue, readList_keeps h3 h2, h4]

theorem makeOneThen_sim {x : Named} {k : GNamed Ref → VProg W C D R}
    (hk : ∀ m' v, Keeps m m' → m'.readOne v = .ok x → Sim SameState ret base m' (k v) p) : Sim SameState ret base m (makeOneThen x k) p := by
  refine makeThen_sim fun m1 r h1 h2 => makesThen_sim fun m2 rs h3 h4 => hk m2 _ (h1.trans h3) ?_
  simp [Mem.readOne, Mem.readValue, read_keeps h3 h2, h4]

theorem makeNamedThen_sim {xs : List Named} {k : List (GNamed Ref) → VProg W C D R}
    (hk : ∀ m' vs, Keeps m m' → m'.readNamed vs = .ok xs → Sim SameState ret base m' (k vs) p) : Sim SameState ret base m (makeNamedThen xs k) p := by
  induction xs generalizing m k with
  | nil => exact hk m [] (.refl _) rfl
  | cons x xs ih =>
    refine makeOneThen_sim fun m1 v h1 h2 => ih fun m2 vs h3 h4 => hk m2 _ (h1.trans h3) ?_
    simp [Mem.readNamed, readOne_keeps h3 h2, h4]

theorem makeInputThen_sim {x : Input} {k : GInput Ref → VProg W C D R}
    (hk : ∀ m' i, Keeps m m' → m'.readInput i = .ok x → Sim SameState ret base m' (k i) p) : Sim SameState ret base m (makeInputThen x k) p := by
  refine makeThen_sim fun m1 n h1 h2 => makeValuesThen_sim fun m2 a h3 h4 => makeNamedThen_sim fun m3 na h5 h6 =>
    hk m3 _ (h1.trans (h3.trans h5)) (readInput_of_parts (read_keeps (h3.trans h5) h2) (readValues_keeps h5 h4) h6)

/-- The written-out body does what the body on texts does. -/
theorem lift_sim {ret : Mem → R → R → Prop} (hret : ∀ m r, ret m r r) (p : Prog W C D R) :
    ∀ base m, Keeps base m → Sim SameState ret base m (lift p) p := by
  induction p with
  | ret r => exact fun base m h => .ret (hret _ _)
  | throw e => exact fun base m h => .throw e
  | ub w => exact fun base m h => .ub w
  | diverge => exact fun base m h => .diverge
  | log t k ih => exact fun base m h => .log t (ih base m h)
  | logline t k ih => exact fun base m h => .logline t (ih base m h)
  | reportError t k ih => exact fun base m h => .reportError t (ih base m h)
  | hasErrors k ih => exact fun base m h => .hasErrors fun b => ih b base m h
  | named k ih => exact fun base m h => .named fun l l' hl => readNamedThen_sim (readNamed_keeps h hl) (ih l' base m h)
  | setNamed i v k ih =>
    exact fun base m h => makeOneThen_sim fun m1 x h1 h2 => .setNamed i (h.trans h1) (.refl _) h2 (ih m1 m1 (.refl _))
  | get k ih => exact fun base m h => .get fun w w' hw => by cases hw; exact ih w base m h
  | set w k ih => exact fun base m h => .set rfl (ih base m h)
  | captured k ih => exact fun base m h => .captured fun d => ih d base m h
  | add n fs k ih => exact fun base m h => .add n fs (ih base m h)
  | remove n k ih => exact fun base m h => .remove n (ih base m h)
  | clear k ih => exact fun base m h => .clear (ih base m h)
  | execLine t k ih =>
    intro base m h
    refine .make t (.execLine (read_make m t) fun m' o o' h1 h2 => outThen_sim h2 ?_)
    have hb : Holds m' m.length t := h1 _ _ (holds_make m t)
    have hf : m'.free m.length = .ok (m'.set m.length none) := by
      unfold Holds at hb
      simp [Mem.free, hb]
    have hn : ∀ t', ¬ Holds base m.length t' := fun t' ht => by
      have := h _ _ ht
      simp [Holds] at this
    have hk : Keeps base m' := h.trans ((keeps_make (.refl _) t).trans h1)
    exact .free m.length hn hf (fun _ _ h => h) (ih o' base _ (keeps_free hk hn hf))
  | execInput i k ih =>
    intro base m h
    refine makeInputThen_sim fun m1 x h1 h2 => .execInput h2 fun m' o o' h3 h4 => outThen_sim h4 ?_
    exact ih o' base _ (h.trans (h1.trans h3))

theorem owned_is (p : Param) : ParamIs (.owned p) p (fun _ x x' => x = x') := by
  intro m a a' h
  refine ⟨fun hd => ?_, fun x hx => ?_, fun x' hx => ⟨x', ?_, rfl⟩⟩ <;> simp only [VParam.owned, h, Res.bind_ok] <;> assumption

theorem ownedParams_are (ps : List Param) :
    ∃ sames, ParamsAre (ps.map VParam.owned) ps sames ∧ ∀ m a b, sames m a b → liftDef.go ps a = b := by
  induction ps with
  | nil => exact ⟨_, .nil, fun _ _ _ _ => rfl⟩
  | cons p ps ih =>
    obtain ⟨sames, h1, h2⟩ := ih
    refine ⟨_, .cons (owned_is p) h1, ?_⟩
    rintro m ⟨a, as⟩ ⟨b, bs⟩ ⟨h3, h4⟩
    dsimp only at h3 h4
    subst h3
    rw [← h2 m as bs h4]
    rfl

theorem liftDef_is (d : FunctorDef W C D) : DefIs (liftDef d) d := by
  obtain ⟨sames, h1, h2⟩ := ownedParams_are d.params
  refine ⟨sames, h1, fun m a b hab => ?_⟩
  have : (liftDef d).body a = lift (d.body b) := by
    show lift (d.body (liftDef.go d.params a)) = _
    rw [h2 m a b hab]
  rw [this]
  refine lift_sim (R := d.R) (ret := PrintsAs (liftDef d) d) (fun m r => ?_) (d.body b) m m (.refl _)
  unfold PrintsAs vtext textOf liftDef
  cases d.print <;> rfl

end Vw
end Coil
