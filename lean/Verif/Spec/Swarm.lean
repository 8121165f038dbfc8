import Verif.Spec.Story
import Verif.Model.Swarm

/-!
# Specification of the particle system

Where a particle is follows from where it was put and from all updates after that.
-/

namespace Coil.Spec

/-- What the user has done. -/
inductive SwarmDeed where
  | add (id : Bytes) (p v : Point)
  | update (dt : Fl)
  | pivot (p : Point)
  deriving DecidableEq

/-- The steps of time of a history, in order. -/
def stepsOf (h : List SwarmDeed) : List Fl := h.filterMap fun
  | .update dt => some dt
  | _ => none

/-- A coordinate that changes with the velocity `v` over steps of time, rounded at each operation. -/
def travel (nan : Fl → Fl → Bool) (x v : Fl) (steps : List Fl) : Fl :=
  steps.foldl (fun x dt => Fl.add .single nan x (Fl.mul .single nan v dt)) x

/-- A particle that was put at `p` before the steps. -/
def moved (nan : Fl → Fl → Bool) (id : Bytes) (p v : Point) (steps : List Fl) : Mote :=
  ⟨id, ⟨travel nan p.x v.x steps, travel nan p.y v.y steps⟩, v⟩

/-- All particles, the oldest first. -/
def swarm (nan : Fl → Fl → Bool) : List SwarmDeed → List Mote
  | [] => []
  | .add id p v :: later => moved nan id p v (stepsOf later) :: swarm nan later
  | _ :: later => swarm nan later

/-- The last point the pivot was set to; the origin at first. -/
def pivotAfter (h : List SwarmDeed) : Point :=
  ((h.filterMap fun | .pivot p => some p | _ => none).getLast?).getD ⟨.fin false 0 Fmt.single.emin, .fin false 0 Fmt.single.emin⟩

/-- The library reads the text as this number (C68). -/
def ReadsFloat (tiny : Nat → Nat → Bool) (t : Bytes) (x : Fl) : Prop := (singleConv tiny).fromString ⟨[t]⟩ = .ok (.ok x)

/-- A value that stands for a point: two texts of numbers. -/
def ReadsPoint (tiny : Nat → Nat → Bool) (v : Value) (p : Point) : Prop := ∃ a b, v = ⟨[a, b]⟩ ∧ ReadsFloat tiny a p.x ∧ ReadsFloat tiny b p.y

/-- The text of a point. -/
def pointText (p : Point) : Bytes := [40] ++ Fl.printG p.x ++ [44] ++ Fl.printG p.y ++ [41]

/-- The text of a particle. -/
def moteText (m : Mote) : Bytes := lit "{'" ++ m.id ++ lit "': p " ++ pointText m.pos ++ lit ", v " ++ pointText m.vel ++ lit "}"

/-- The line of a particle in the list; a name ends at a character 0. -/
def moteLine (m : Mote) : Bytes := upToNul m.id ++ [9] ++ pointText m.pos ++ [9] ++ pointText m.vel ++ [10]

/-- `m` is the first particle with the name. -/
def FirstMote (l : List Mote) (id : Bytes) (m : Mote) : Prop := ∃ pre post, l = pre ++ m :: post ∧ m.id = id ∧ ∀ n ∈ pre, n.id ≠ id

/-- The sum of numbers from the left, rounded at each step. -/
def leftSum (nan : Fl → Fl → Bool) (xs : List Fl) : Fl := xs.foldl (fun a x => Fl.add .single nan a x) (.fin false 0 Fmt.single.emin)

/-- What the commands of the program do. -/
inductive SwarmTold (tiny : Nat → Nat → Bool) (nan : Fl → Fl → Bool) : Telling (List SwarmDeed)
  | add {h id vp vv p v named} : ReadsPoint tiny vp p → ReadsPoint tiny vv v →
      SwarmTold tiny nan h ⟨lit "particles.add", [⟨[id]⟩, vp, vv], named⟩ (h ++ [.add id p v]) none []
  | got {h id m named} : FirstMote (swarm nan h) id m → SwarmTold tiny nan h ⟨lit "particles.get", [⟨[id]⟩], named⟩ h (some (moteText m)) []
  | missing {h id named} : (∀ m ∈ swarm nan h, m.id ≠ id) → SwarmTold tiny nan h ⟨lit "particles.get", [⟨[id]⟩], named⟩ h (some (lit "null")) []
  | update {h t dt named} : ReadsFloat tiny t dt →
      SwarmTold tiny nan h ⟨lit "particles.update", [⟨[t]⟩], named⟩ (h ++ [.update dt]) none []
  | list {h named} : SwarmTold tiny nan h ⟨lit "particles.list", [], named⟩ h none
      (lit "ID\tPos\tVel\n--\t---\t---\n" ++ ((swarm nan h).map moteLine).flatten)
  | pivot {h named} : SwarmTold tiny nan h ⟨lit "pivot", [], named⟩ h (some (pointText (pivotAfter h))) []
  | setPivot {h v p named} : ReadsPoint tiny v p → SwarmTold tiny nan h ⟨lit "pivot", [v], named⟩ (h ++ [.pivot p]) (some (pointText p)) []
  | sum {h v xs named} : Forall2 (ReadsFloat tiny) v.subvalues xs →
      SwarmTold tiny nan h ⟨lit "sum_all", [v], named⟩ h (some ((singleConv tiny).toString (leftSum nan xs))) []
  | noPi {h t rest x named} : t ≠ [] → ReadsFloat tiny t x →
      SwarmTold tiny nan h ⟨lit "get_arg_or_pi", [⟨t :: rest⟩], named⟩ h (some ((singleConv tiny).toString x)) []
  | pi {h v named} : v.subvalues.head?.getD [] = [] → SwarmTold tiny nan h ⟨lit "get_arg_or_pi", [v], named⟩ h (some (lit "3.14")) []

/-- The state is the one of the history. -/
def SwarmKeeps (nan : Fl → Fl → Bool) (w : SwarmWorld) (h : List SwarmDeed) : Prop := w.motes = swarm nan h ∧ w.pivot = pivotAfter h

end Coil.Spec
