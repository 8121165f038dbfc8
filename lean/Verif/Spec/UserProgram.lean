import Verif.Model.Pool
import Verif.Spec.Account
import Verif.Spec.BasicExample
import Verif.Spec.Particles
import Verif.Spec.Pool
import Verif.Spec.Swarm

/-!
# Specification of the program of examples/usertypes
-/

namespace Coil.Spec

/-- A value that stands for two numbers. -/
def ReadsVec (tiny : Nat → Nat → Bool) (v : Value) (p : Vec2) : Prop := ∃ a b, v = ⟨[a, b]⟩ ∧ ReadsFloat tiny a p.x ∧ ReadsFloat tiny b p.y

/-- What was done to the entities, and the position and velocity of the particle. -/
structure UserHistory where
  deeds : List Deed
  pos : Vec2
  vel : Vec2

/-- Where the particle is at a time. -/
def UserHistory.at_ (nan : Fl → Fl → Bool) (h : UserHistory) (t : Fl) : Vec2 :=
  ⟨Fl.add .single nan h.pos.x (Fl.mul .single nan h.vel.x t), Fl.add .single nan h.pos.y (Fl.mul .single nan h.vel.y t)⟩

/-- Each sum of an initial part is a value of `int`. -/
def SumsFit (pl : Platform) (xs : List Int) : Prop := ∀ k, InRange pl .int (xs.take k).sum

/-- What the commands do. -/
inductive UserTold (pl : Platform) (tiny : Nat → Nat → Bool) (nan : Fl → Fl → Bool) : Account UserHistory
  | entity {h i deeds r} : EntityTold h.deeds i deeds r → UserTold pl tiny nan h i ⟨deeds, h.pos, h.vel⟩ (.good r [])
  | spawn {h v u p q named} : ReadsVec tiny v p → ReadsVec tiny u q →
      UserTold pl tiny nan h ⟨lit "particles.spawn", [v, u], named⟩ ⟨h.deeds, p, q⟩ (.good none [])
  | posAt {h t x s named} : ReadsFloat tiny t x → PairText (h.at_ nan x) s →
      UserTold pl tiny nan h ⟨lit "particles.get_pos_at", [⟨[t]⟩], named⟩ h (.good (some s) [])
  | pos {h s named} : PairText h.pos s → UserTold pl tiny nan h ⟨lit "particles.last_particle_pos", [], named⟩ h (.good (some s) [])
  | setPos {h v p s named} : ReadsVec tiny v p → PairText p s →
      UserTold pl tiny nan h ⟨lit "particles.last_particle_pos", [v], named⟩ ⟨h.deeds, p, h.vel⟩ (.good (some s) [])
  | sum {h v xs named} : Forall2 (IntText pl) v.subvalues xs → SumsFit pl xs →
      UserTold pl tiny nan h ⟨lit "sum", [v], named⟩ h (.good (some (intDec xs.sum)) [])

/-- The commands that make the program undefined: sums that overflow. -/
def UserTrouble (pl : Platform) (i : Input) : Prop :=
  i.name = lit "sum" ∧ ∃ v xs, i.arguments = [v] ∧ Forall2 (IntText pl) v.subvalues xs ∧ ¬ SumsFit pl xs

/-- The beginning. -/
def userBeginning : UserHistory := ⟨[], ⟨.fin false 0 Fmt.single.emin, .fin false 0 Fmt.single.emin⟩, ⟨.fin false 0 Fmt.single.emin, .fin false 0 Fmt.single.emin⟩⟩

/-- The command gives the particle another position or velocity, if its arguments are right. -/
def MovesParticle (i : Input) : Prop :=
  (i.name = lit "particles.spawn" ∧ i.arguments.length = 2) ∨ (i.name = lit "particles.last_particle_pos" ∧ i.arguments.length = 1)

end Coil.Spec
