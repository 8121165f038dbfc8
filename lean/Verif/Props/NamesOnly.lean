import Verif.Proofs.NamesOnly
import Verif.Proofs.EncapsulationMap
import Verif.Props.Semantics

/-!
# Only the names matter (C108)

`erase` of the hash map is wrong for some histories (C24). Which ones, depends on the keys only. For the others the map as it is does what the
semantics of C89 says.
-/

namespace Coil
open Spec UMap

variable {K V V' : Type} [DecidableEq K] {fixed : Bool} {hash : K → Nat} {exceeds : Nat → Nat → Bool}

/-- **C108.** Of two histories with the same keys, the map handles both all along, or none of them. -/
theorem C108_keys {ops : List (DictOp K V)} {ops' : List (DictOp K V')} (h : Forall2 SameKey ops ops') :
    RightAlong fixed hash exceeds ops ↔ RightAlong fixed hash exceeds ops' := by
  rw [← along_recast (f := fun _ => ()), same_recast h, along_recast]

/-- **C108.** And if it handles them, what is stored is the dictionary. -/
theorem C108_stored {ops : List (DictOp K V)} (h : RightAlong fixed hash exceeds ops) :
    ∃ m, mapAfter fixed hash exceeds 1 ops = .ok m ∧ (∀ k, find hash m k = .ok (dictAfter ops k)) ∧ Lists m.entries (dictAfter ops) := by
  obtain ⟨m, h1, h2⟩ := right_of_along h
  exact ⟨m, h1, h2, along_lists h h1⟩

section Programs
variable {W C D : Type} {P : C → FunctorDef W C D} {catching charSigned : Bool} {cfg : LexCfg} {w : W} {acts : List (Action W C D)}
  {outs : List ExecOut}

/-- **C108.** With the map as it is (or repaired), a program whose changes of the registry the map handles all along does what the semantics says, and
nothing else. -/
theorem C108_programs (hp : Proper cfg) :
    (∀ {fuel s}, observed P (mapOps fixed charSigned exceeds) (UMap.create (djb2 charSigned) 1) catching fuel (some (fitting cfg)) w acts =
        .ok (s, outs) → RightAlong fixed (djb2 charSigned) exceeds (s.history.map asDictOp) →
      ∃ σ, Acts P catching (Scene.start (delims cfg) w) acts outs σ ∧ Shows (mapOps fixed charSigned exceeds) s σ) ∧
    (∀ {σ}, Acts P catching (Scene.start (delims cfg) w) acts outs σ → RightAlong fixed (djb2 charSigned) exceeds (σ.changes.map asDictOp) →
      ∃ fuel s, observed P (mapOps fixed charSigned exceeds) (UMap.create (djb2 charSigned) 1) catching fuel (some (fitting cfg)) w acts =
        .ok (s, outs) ∧ Shows (mapOps fixed charSigned exceeds) s σ) := by
  obtain ⟨m, h1, h2⟩ := map_made (C := C) (D := D) (fixed := fixed) (charSigned := charSigned) (exceeds := exceeds)
  simp only [observed, h1, Res.bind_ok]
  exact ⟨fun h hs => container_sound traced_prefix traced_implements h2 hp h hs,
    fun h hs => container_complete traced_prefix traced_implements h2 hp h hs⟩

/-- **C108.** The histories of C24 and C89 are among them. -/
theorem C108_safe (hex : ∀ b, 0 < b → exceeds 1 b = false) {h : List (RegEvent C D)} (hs : fixed = true ∨ SafeHistory h) :
    RightAlong fixed (djb2 charSigned) exceeds (h.map asDictOp) := handled_traced hex hs

end Programs

/-! ## Examples -/

namespace NamesOnly

/-- Two removals in a row of entries that are not the last ones. -/
def ops : List (DictOp Bytes Nat) :=
  [.put (lit "create_subsystem") 0, .put (lit "destroy_subsystem") 1, .put (lit "subsystem.time") 2, .put (lit "subsystem.counter") 3,
    .put (lit "subsystem.data") 4, .put (lit "subsystem.do_some_work") 5, .erase (lit "subsystem.time"), .erase (lit "subsystem.counter"),
    .erase (lit "subsystem.data"), .erase (lit "subsystem.do_some_work")]

end NamesOnly

/-- A history that the map as it is handles, although the sufficient condition of C24 does not hold. -/
example : RightAlong false (djb2 true) overOne NamesOnly.ops ∧ ¬ SafeFrom .calm [] NamesOnly.ops := by
  constructor
  · have h := (leads_chapters (charSigned := true) (((Chapters.start (f := []) (g := [])).adds (f1 := []) (f2 := []) (f3 := []) (f4 := [])).removes))
    obtain ⟨_, _, _, _, h⟩ := h
    have h2 := h.1
    exact (along_recast (f := fun _ : Nat => ())).1 h2
  · intro h
    have h2 := h.2.2.2.2.2.2.2.1
    unfold Allowed at h2
    revert h2
    decide +kernel

/-- A history that it does not handle, whatever the values are. -/
example {V : Type} (v : Nat → V) : ¬ RightAlong false (djb2 true) overOne
    ([.put (lit "a") (v 1), .put (lit "d") (v 2), .put (lit "h") (v 3), .put (lit "l") (v 4), .erase (lit "d"), .erase (lit "a"), .put (lit "p") (v 5),
      .put (lit "a") (v 6), .erase (lit "l")] : List (DictOp Bytes V)) := by
  intro h
  have h' := right_of_along ((along_recast (f := fun _ : V => ())).2 h)
  obtain ⟨m, h1, h2⟩ := h'
  have h3 : (mapAfter false (djb2 true) overOne 1 [.put (lit "a") (), .put (lit "d") (), .put (lit "h") (), .put (lit "l") (), .erase (lit "d"), .erase (lit "a"),
      .put (lit "p") (), .put (lit "a") (), .erase (lit "l")]).map (fun m => find (djb2 true) m (lit "p")) = .ok (.ok none) := by decide +kernel
  simp only [List.map_cons, List.map_nil, recastOp] at h1 h2
  rw [h1] at h3
  have h4 := h2 (lit "p")
  simp only [Res.map_ok, Res.ok.injEq] at h3
  rw [h4] at h3
  revert h3
  decide +kernel

end Coil
