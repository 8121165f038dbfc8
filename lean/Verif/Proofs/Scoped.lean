import Verif.Spec.Scoped
import Verif.Proofs.IndependentMaps

/-! # Scoped commands: what really happens -/

namespace Coil
namespace Scoped
open Spec Spec.Scoped

variable {S W C D : Type} {ops : RegOps S C D} {Safe : List (RegEvent C D) → Prop} {I : List (RegEvent C D) → S → Prop}
  {made : Res S} {w : W} {g g' : Globe S W C D}

/-- A state with a dictionary instead of a registry. -/
structure Flat (C D : Type) where
  dict : Option (Bytes → Option (List (C × D)))
  scopes : List (Option (List Bytes))

/-- The names of a scope that is alive. -/
def Flat.names (f : Flat C D) (i : Nat) : Option (List Bytes) := (f.scopes[i]?).join

/-- Removing names. -/
def Flat.remove (f : Flat C D) (ns : List Bytes) : Option (Flat C D) :=
  if ns = [] then some f else f.dict.map (fun d => ⟨some (fun k => if k ∈ ns then none else d k), f.scopes⟩)

/-- A new meaning of a name. -/
def Flat.put (f : Flat C D) (n : Bytes) (fs : List (C × D)) : Option (Flat C D) :=
  f.dict.map (fun d => ⟨some (fun k => if k = n then some fs else d k), f.scopes⟩)

/-- The actions on such states; `none` is undefined behaviour. -/
def Flat.step (f : Flat C D) : Act C D → Option (Flat C D)
  | .make => some { f with dict := some (fun _ => none) }
  | .drop => some { f with dict := none }
  | .add n fs => f.put n fs
  | .remove n => f.remove [n]
  | .clear => f.dict.map (fun _ => { f with dict := some (fun _ => none) })
  | .new => some { f with scopes := f.scopes ++ [some []] }
  | .addIn i n fs => (f.names i).bind fun ns => (f.put n fs).map fun f => { f with scopes := f.scopes.set i (some (ns ++ [n])) }
  | .move i => (f.names i).map fun ns => { f with scopes := f.scopes.set i (some []) ++ [some ns] }
  | .assign i j => (f.names i).bind fun ms => (f.remove ms).bind fun f => (f.names j).map fun ns =>
      if i = j then { f with scopes := f.scopes.set i (some []) }
      else { f with scopes := (f.scopes.set i (some ns)).set j (some []) }
  | .close i => (f.names i).bind fun ms => (f.remove ms).map fun f => { f with scopes := f.scopes.set i none }

/-- The code and the captured data of functions. -/
def plain (fs : List (Inst C D)) : List (C × D) := fs.map (fun f => (f.code, f.data))

theorem plain_allocate (k : Nat) (fs : List (C × D)) : plain (allocate k fs) = fs := by
  induction fs generalizing k with
  | nil => rfl
  | cons f fs ih =>
    obtain ⟨c, d⟩ := f
    simp only [allocate, plain, List.map_cons, List.cons.injEq, true_and]
    exact ih (k + 1)

/-- The registry stands for the dictionary. -/
def SimReg (I : List (RegEvent C D) → S → Prop) : Option (Sys S W C D) → Option (Bytes → Option (List (C × D))) → Prop
  | none, none => True
  | some s, some d => I s.history s.reg ∧ ∀ n, d n = (standing s.history n).map (fun c => plain c.functors)
  | _, _ => False

/-- The states correspond. -/
structure Sim (I : List (RegEvent C D) → S → Prop) (g : Globe S W C D) (f : Flat C D) : Prop where
  reg : SimReg I g.global f.dict
  scopes : g.scopes = f.scopes

/-- The history of the registry, if there is one, is safe. -/
def SafeNow (Safe : List (RegEvent C D) → Prop) (g : Globe S W C D) : Prop := ∀ s, g.global = some s → Safe s.history

section
variable (hm : Implements Safe ops I) (hpre : ∀ a b : List (RegEvent C D), Safe (a ++ b) → Safe a)
include hm hpre

omit hpre in
theorem add_sim {s s' : Sys S W C D} {d : Bytes → Option (List (C × D))} {n : Bytes} {fs : List (C × D)}
    (hr : SimReg I (some s) (some d)) (h : bindingsAdd ops s n fs = .ok s') (hs : Safe s'.history) :
    SimReg I (some s') (some (fun k => if k = n then some fs else d k)) := by
  obtain ⟨hI, hd⟩ := hr
  obtain ⟨old, h1, h⟩ := Res.bind_eq_ok.1 h
  obtain ⟨reg, h2, h⟩ := Res.bind_eq_ok.1 h
  cases h
  obtain ⟨m', h3, h4⟩ := hm.put n _ hI hs
  rw [h3] at h2
  cases h2
  refine ⟨h4, fun k => ?_⟩
  simp only [standing_snoc, asDictOp, dictStep]
  split
  · simp [plain_allocate]
  · exact hd k

omit hpre in
theorem remove_sim {s s' : Sys S W C D} {d : Bytes → Option (List (C × D))} {n : Bytes}
    (hr : SimReg I (some s) (some d)) (h : bindingsRemove ops s n = .ok s') (hs : Safe s'.history) :
    SimReg I (some s') (some (fun k => if k = n then none else d k)) := by
  obtain ⟨hI, hd⟩ := hr
  obtain ⟨old, h1, h⟩ := Res.bind_eq_ok.1 h
  obtain ⟨reg, h2, h⟩ := Res.bind_eq_ok.1 h
  cases h
  obtain ⟨m', h3, h4⟩ := hm.erase n hI hs
  rw [h3] at h2
  cases h2
  refine ⟨h4, fun k => ?_⟩
  simp only [standing_snoc, asDictOp, dictStep]
  split
  · rfl
  · exact hd k

omit hm hpre in
theorem onGlobal_ok {f : Sys S W C D → Res (Sys S W C D)} (h : onGlobal g f = .ok g') :
    ∃ s s', g.global = some s ∧ f s = .ok s' ∧ g' = { g with global := some s' } := by
  unfold onGlobal at h
  split at h
  · cases h
  · rename_i s hg
    obtain ⟨s', h1, h2⟩ := Res.bind_eq_ok.1 h
    cases h2
    exact ⟨s, s', hg, h1, rfl⟩

omit hm hpre in
theorem Sim.some {f : Flat C D} (h : Sim I g f) {s : Sys S W C D} (hg : g.global = some s) :
    ∃ d, f.dict = .some d ∧ SimReg I (.some s) (.some d) := by
  have := h.reg
  rw [hg] at this
  cases hd : f.dict with
  | none => rw [hd] at this; exact this.elim
  | some d => rw [hd] at this; exact ⟨d, rfl, this⟩

omit hm hpre in
theorem removeAll_history {ns : List Bytes} (h : removeAll ops ns g = .ok g') :
    g'.scopes = g.scopes ∧ ∀ s, g.global = some s → ∃ s', g'.global = some s' ∧ ∃ more, s'.history = s.history ++ more := by
  induction ns generalizing g with
  | nil => cases h; exact ⟨rfl, fun s hs => ⟨s, hs, [], by simp⟩⟩
  | cons n ns ih =>
    obtain ⟨g1, h1, h2⟩ := Res.bind_eq_ok.1 h
    obtain ⟨s, s', e1, e2, rfl⟩ := onGlobal_ok h1
    obtain ⟨k1, k2⟩ := ih h2
    refine ⟨k1, fun s0 hs0 => ?_⟩
    rw [e1] at hs0
    cases hs0
    obtain ⟨s2, e3, more, e4⟩ := k2 s' rfl
    obtain ⟨old, _, e2⟩ := Res.bind_eq_ok.1 e2
    obtain ⟨reg, _, e2⟩ := Res.bind_eq_ok.1 e2
    cases e2
    exact ⟨s2, e3, _, by rw [e4]; simp only [List.append_assoc]; rfl⟩

theorem removeAll_sim {ns : List Bytes} {f : Flat C D} (hsim : Sim I g f) (h : removeAll ops ns g = .ok g') (hs : SafeNow Safe g') :
    ∃ f', f.remove ns = some f' ∧ Sim I g' f' := by
  induction ns generalizing g f with
  | nil => cases h; exact ⟨f, by simp [Flat.remove], hsim⟩
  | cons n ns ih =>
    obtain ⟨g1, h1, h2⟩ := Res.bind_eq_ok.1 h
    obtain ⟨s, s', e1, e2, rfl⟩ := onGlobal_ok h1
    obtain ⟨k1, k2⟩ := removeAll_history h2
    obtain ⟨s2, e3, more, e4⟩ := k2 s' rfl
    obtain ⟨d, hd, hr⟩ := hsim.some e1
    have hsafe : Safe s'.history := hpre _ more (e4 ▸ hs s2 e3)
    have hsim1 : Sim I { g with global := some s' } ⟨some (fun k => if k = n then none else d k), f.scopes⟩ :=
      ⟨remove_sim hm hr e2 hsafe, hsim.scopes⟩
    obtain ⟨f', r1, r2⟩ := ih hsim1 h2
    refine ⟨f', ?_, r2⟩
    rw [← r1]
    simp only [Flat.remove, reduceCtorEq, if_false, hd, Option.map_some]
    split
    · rename_i e
      subst e
      simp
    · congr 3
      funext k
      simp only [List.mem_cons]
      by_cases h1 : k = n <;> by_cases h2 : k ∈ ns <;> simp [h1, h2]

omit hm hpre in
theorem namesOf_ok {f : Flat C D} (hsim : Sim I g f) {i : Nat} {ns : List Bytes} (h : namesOf g i = .ok ns) : f.names i = some ns := by
  unfold namesOf at h
  unfold Flat.names
  rw [← hsim.scopes]
  split at h
  · rename_i e
    cases h
    rw [e]
    rfl
  · cases h

omit hm hpre in
theorem namesOf_of {f : Flat C D} (hsim : Sim I g f) {i : Nat} {ns : List Bytes} (h : f.names i = some ns) : namesOf g i = .ok ns := by
  unfold Flat.names at h
  rw [← hsim.scopes] at h
  unfold namesOf
  cases hg : g.scopes[i]? with
  | none => rw [hg] at h; cases h
  | some o =>
    rw [hg] at h
    cases o with
    | none => cases h
    | some ms => cases h; rfl

/-- A real step that goes well is a step on the dictionary. -/
theorem step_sim (hmade : ∃ m, made = .ok m ∧ I [] m) {f : Flat C D} (hsim : Sim I g f) {a : Act C D} (h : step ops made w g a = .ok g')
    (hs : SafeNow Safe g') : ∃ f', f.step a = some f' ∧ Sim I g' f' := by
  cases a with
  | make =>
    obtain ⟨m, h1, h2⟩ := hmade
    simp only [step, h1, Res.bind_ok] at h
    cases h
    exact ⟨_, rfl, ⟨h2, fun n => rfl⟩, hsim.scopes⟩
  | drop => cases h; exact ⟨_, rfl, trivial, hsim.scopes⟩
  | add n fs =>
    obtain ⟨s, s', e1, e2, rfl⟩ := onGlobal_ok h
    obtain ⟨d, hd, hr⟩ := hsim.some e1
    exact ⟨⟨some (fun k => if k = n then some fs else d k), f.scopes⟩, by simp only [Flat.step, Flat.put, hd]; rfl,
      add_sim hm hr e2 (hs _ rfl), hsim.scopes⟩
  | remove n =>
    refine removeAll_sim hm hpre (ns := [n]) hsim ?_ hs
    simp only [removeAll]
    show (step ops made w g (.remove n)).bind _ = _
    rw [h]
    rfl
  | clear =>
    obtain ⟨s, s', e1, e2, rfl⟩ := onGlobal_ok h
    obtain ⟨d, hd, hr⟩ := hsim.some e1
    cases e2
    refine ⟨⟨some (fun _ => none), f.scopes⟩, by simp only [Flat.step, hd]; rfl, ⟨hm.clear hr.1 (hs _ rfl), fun n => ?_⟩, hsim.scopes⟩
    simp [bindingsClear, standing_snoc, asDictOp, dictStep]
  | new =>
    cases h
    exact ⟨_, rfl, hsim.reg, by rw [hsim.scopes]⟩
  | addIn i n fs =>
    obtain ⟨ns, h1, h⟩ := Res.bind_eq_ok.1 h
    obtain ⟨g1, h2, h⟩ := Res.bind_eq_ok.1 h
    cases h
    obtain ⟨s, s', e1, e2, rfl⟩ := onGlobal_ok h2
    obtain ⟨d, hd, hr⟩ := hsim.some e1
    refine ⟨⟨some (fun k => if k = n then some fs else d k), f.scopes.set i (some (ns ++ [n]))⟩, ?_,
      add_sim hm hr e2 (hs _ rfl), by simp only [hsim.scopes]⟩
    simp only [Flat.step, namesOf_ok hsim h1, Option.bind_some, Flat.put, hd, Option.map_some]
  | move i =>
    obtain ⟨ns, h1, h⟩ := Res.bind_eq_ok.1 h
    cases h
    refine ⟨{ f with scopes := f.scopes.set i (some []) ++ [some ns] }, ?_, hsim.reg, by simp only [hsim.scopes]⟩
    simp only [Flat.step, namesOf_ok hsim h1, Option.map_some]
  | assign i j =>
    obtain ⟨g1, h1, h⟩ := Res.bind_eq_ok.1 h
    obtain ⟨ms, h2, h1⟩ := Res.bind_eq_ok.1 h1
    obtain ⟨g2, h3, h1⟩ := Res.bind_eq_ok.1 h1
    cases h1
    obtain ⟨ns, h4, h⟩ := Res.bind_eq_ok.1 h
    cases h
    obtain ⟨f1, r1, r2⟩ := removeAll_sim hm hpre hsim h3 hs
    have hms := namesOf_ok hsim h2
    have hsc : f1.scopes = f.scopes := by rw [← r2.scopes, (removeAll_history h3).1, hsim.scopes]
    have hi : i < f.scopes.length := by
      unfold Flat.names at hms
      rcases Nat.lt_or_ge i f.scopes.length with hc | hc
      · exact hc
      · rw [List.getElem?_eq_none hc] at hms; cases hms
    unfold namesOf at h4
    simp only [r2.scopes, hsc] at h4 ⊢
    by_cases hij : i = j
    · subst hij
      simp only [List.getElem?_set, if_true, hi] at h4
      cases h4
      refine ⟨{ f1 with scopes := f1.scopes.set i (some []) }, ?_, r2.reg, by simp [hsc, List.set_set]⟩
      have hms1 : f1.names i = some ms := by rw [← hms]; simp only [Flat.names, hsc]
      simp only [Flat.step, hms, Option.bind_some, r1, hms1, Option.map_some, if_true]
    · simp only [List.getElem?_set, hij, if_false] at h4
      have hns : f1.names j = some ns := by
        unfold Flat.names
        rw [hsc]
        split at h4
        · rename_i e; cases h4; rw [e]; rfl
        · cases h4
      refine ⟨{ f1 with scopes := (f1.scopes.set i (some ns)).set j (some []) }, ?_, r2.reg, by simp [hsc, List.set_set, hij]⟩
      simp only [Flat.step, hms, Option.bind_some, r1, hns, Option.map_some, hij, if_false]
  | close i =>
    obtain ⟨g1, h1, h⟩ := Res.bind_eq_ok.1 h
    obtain ⟨ms, h2, h1⟩ := Res.bind_eq_ok.1 h1
    obtain ⟨g2, h3, h1⟩ := Res.bind_eq_ok.1 h1
    cases h1
    cases h
    obtain ⟨f1, r1, r2⟩ := removeAll_sim hm hpre hsim h3 hs
    refine ⟨{ f1 with scopes := f1.scopes.set i none }, ?_, r2.reg, by simp [r2.scopes, List.set_set]⟩
    simp only [Flat.step, namesOf_ok hsim h2, Option.bind_some, r1, Option.map_some]

end

section
variable (hm : Implements Safe ops I) (hall : ∀ h, Safe h)
include hm hall

theorem add_defined {s : Sys S W C D} {d : Bytes → Option (List (C × D))} (hr : SimReg I (some s) (some d)) (n : Bytes) (fs : List (C × D)) :
    ∃ s', bindingsAdd ops s n fs = .ok s' := by
  obtain ⟨m', h3, h4⟩ := hm.put n (allocate s.next fs) hr.1 (hall _)
  exact ⟨_, by simp only [bindingsAdd, hm.find hr.1 (hall _) n, Res.bind_ok, h3]; rfl⟩

theorem removeAll_defined {ns : List Bytes} {f f' : Flat C D} (hsim : Sim I g f) (h : f.remove ns = some f') :
    ∃ g', removeAll ops ns g = .ok g' := by
  induction ns generalizing g f f' with
  | nil => exact ⟨g, rfl⟩
  | cons n ns ih =>
    simp only [Flat.remove, reduceCtorEq, if_false, Option.map_eq_some_iff] at h
    obtain ⟨d, hd, rfl⟩ := h
    have hreg := hsim.reg
    rw [hd] at hreg
    cases hg : g.global with
    | none => rw [hg] at hreg; exact hreg.elim
    | some s =>
      rw [hg] at hreg
      obtain ⟨m', h3, h4⟩ := hm.erase n hreg.1 (hall _)
      have hrem : bindingsRemove ops s n = .ok { s with reg := m', freed := s.freed ++ idsOf (standing s.history n), history := s.history ++ [.removed n] } := by
        simp only [bindingsRemove, hm.find hreg.1 (hall _) n, Res.bind_ok, h3]
      have hsim' : Sim I { g with global := some { s with reg := m', freed := s.freed ++ idsOf (standing s.history n), history := s.history ++ [.removed n] } }
          ⟨some (fun k => if k = n then none else d k), f.scopes⟩ :=
        ⟨remove_sim hm hreg hrem (hall _), hsim.scopes⟩
      have : ∃ f', (⟨some (fun k => if k = n then none else d k), f.scopes⟩ : Flat C D).remove ns = some f' := by
        simp only [Flat.remove]
        split
        · exact ⟨_, rfl⟩
        · exact ⟨_, rfl⟩
      obtain ⟨f2, hf2⟩ := this
      obtain ⟨g', h5⟩ := ih hsim' hf2
      exact ⟨g', by simp only [removeAll, onGlobal, hg, hrem, Res.bind_ok, h5]⟩

/-- A step on the dictionary is a real step. -/
theorem step_defined (hmade : ∃ m, made = .ok m ∧ I [] m) {f f' : Flat C D} (hsim : Sim I g f) {a : Act C D} (h : f.step a = some f') :
    ∃ g', step ops made w g a = .ok g' := by
  have hadd : ∀ n fs f1, f.put n fs = some f1 → ∃ g1, onGlobal g (fun s => bindingsAdd ops s n fs) = .ok g1 := by
    intro n fs f1 h
    simp only [Flat.put, Option.map_eq_some_iff] at h
    obtain ⟨d, hd, rfl⟩ := h
    have hreg := hsim.reg
    rw [hd] at hreg
    cases hg : g.global with
    | none => rw [hg] at hreg; exact hreg.elim
    | some s =>
      rw [hg] at hreg
      obtain ⟨s', h1⟩ := add_defined hm hall hreg n fs
      exact ⟨_, by simp only [onGlobal, hg, h1, Res.bind_ok]; rfl⟩
  have hclear : ∀ i ms f1, f.names i = some ms → f.remove ms = some f1 →
      ∃ g1, scopeClear ops g i = .ok g1 ∧ g1.scopes = g.scopes.set i (some []) ∧ f1.scopes = f.scopes := by
    intro i ms f1 h1 h2
    obtain ⟨g1, h3⟩ := removeAll_defined hm hall hsim h2
    refine ⟨{ g1 with scopes := g1.scopes.set i (some []) }, by simp only [scopeClear, namesOf_of hsim h1, Res.bind_ok, h3], ?_, ?_⟩
    · simp only [(removeAll_history h3).1]
    · simp only [Flat.remove] at h2
      split at h2
      · cases h2; rfl
      · obtain ⟨d, _, rfl⟩ := Option.map_eq_some_iff.1 h2; rfl
  cases a with
  | make =>
    obtain ⟨m, h1, _⟩ := hmade
    exact ⟨{ g with global := some (freshSys m none w) }, by simp only [step, h1, Res.bind_ok]⟩
  | drop => exact ⟨_, rfl⟩
  | add n fs => exact hadd n fs f' h
  | remove n =>
    obtain ⟨g1, h1⟩ := removeAll_defined hm hall (ns := [n]) hsim h
    obtain ⟨g2, h2, _⟩ := Res.bind_eq_ok.1 h1
    exact ⟨g2, h2⟩
  | clear =>
    simp only [Flat.step, Option.map_eq_some_iff] at h
    obtain ⟨d, hd, rfl⟩ := h
    have hreg := hsim.reg
    rw [hd] at hreg
    cases hg : g.global with
    | none => rw [hg] at hreg; exact hreg.elim
    | some s => exact ⟨{ g with global := some (bindingsClear ops s) }, by simp only [step, onGlobal, hg, Res.bind_ok]⟩
  | new => exact ⟨_, rfl⟩
  | addIn i n fs =>
    simp only [Flat.step, Option.bind_eq_some_iff, Option.map_eq_some_iff] at h
    obtain ⟨ns, h1, f1, h2, _⟩ := h
    obtain ⟨g1, h3⟩ := hadd n fs f1 h2
    exact ⟨{ g1 with scopes := g1.scopes.set i (some (ns ++ [n])) }, by simp only [step, scopeAdd, namesOf_of hsim h1, Res.bind_ok, h3]⟩
  | move i =>
    simp only [Flat.step, Option.map_eq_some_iff] at h
    obtain ⟨ns, h1, _⟩ := h
    exact ⟨{ g with scopes := g.scopes.set i (some []) ++ [some ns] }, by simp only [step, scopeMove, namesOf_of hsim h1, Res.bind_ok]⟩
  | assign i j =>
    simp only [Flat.step, Option.bind_eq_some_iff, Option.map_eq_some_iff] at h
    obtain ⟨ms, h1, f1, h2, ns, h3, _⟩ := h
    obtain ⟨g1, h4, h5, h6⟩ := hclear i ms f1 h1 h2
    have : ∃ ns', namesOf g1 j = .ok ns' := by
      unfold namesOf
      rw [h5]
      simp only [Flat.names, h6] at h3
      rw [← hsim.scopes] at h3
      cases hg : g.scopes[j]? with
      | none => rw [hg] at h3; cases h3
      | some o =>
        rw [hg] at h3
        cases o with
        | none => cases h3
        | some ms' =>
          by_cases hij : i = j
          · subst hij
            have hi : i < g.scopes.length := by
              rcases Nat.lt_or_ge i g.scopes.length with hc | hc
              · exact hc
              · rw [List.getElem?_eq_none hc] at hg; cases hg
            exact ⟨[], by simp [hi]⟩
          · exact ⟨ms', by simp [hij, hg]⟩
    obtain ⟨ns', h7⟩ := this
    exact ⟨_, by simp only [step, scopeAssign, h4, Res.bind_ok, h7]; rfl⟩
  | close i =>
    simp only [Flat.step, Option.bind_eq_some_iff, Option.map_eq_some_iff] at h
    obtain ⟨ms, h1, f1, h2, _⟩ := h
    obtain ⟨g1, h4, _⟩ := hclear i ms f1 h1 h2
    exact ⟨{ g1 with scopes := g1.scopes.set i none }, by simp only [step, scopeClose, h4, Res.bind_ok]⟩

end

/-! ## Runs -/

/-- Many actions on the dictionary. -/
def Flat.run : List (Act C D) → Flat C D → Option (Flat C D)
  | [], f => some f
  | a :: as, f => (f.step a).bind (Flat.run as)

theorem run_append (as bs : List (Act C D)) (g : Globe S W C D) :
    run ops made w (as ++ bs) g = (run ops made w as g).bind (run ops made w bs) := by
  induction as generalizing g with
  | nil => rfl
  | cons a as ih =>
    simp only [List.cons_append, run]
    cases step ops made w g a with
    | ok g1 => simp only [Res.bind_ok, ih]
    | ub u => rfl
    | diverge => rfl

theorem Flat.run_append (as bs : List (Act C D)) (f : Flat C D) : Flat.run (as ++ bs) f = (Flat.run as f).bind (Flat.run bs) := by
  induction as generalizing f with
  | nil => rfl
  | cons a as ih =>
    simp only [List.cons_append, Flat.run]
    cases f.step a with
    | none => rfl
    | some f1 => simp only [Option.bind_some, ih]

theorem start_sim : Sim I (start : Globe S W C D) ⟨none, []⟩ := ⟨trivial, rfl⟩

/-- A run that goes well, with registries whose histories are safe all the time, is a run on the dictionary. -/
theorem run_sim (hm : Implements Safe ops I) (hpre : ∀ a b : List (RegEvent C D), Safe (a ++ b) → Safe a)
    (hmade : ∃ m, made = .ok m ∧ I [] m) (acts : List (Act C D)) {f : Flat C D} (hsim : Sim I g f)
    (hs : ∀ as bs g', acts = as ++ bs → run ops made w as g = .ok g' → SafeNow Safe g') (h : run ops made w acts g = .ok g') :
    ∃ f', Flat.run acts f = some f' ∧ Sim I g' f' := by
  induction acts generalizing g f with
  | nil => cases h; exact ⟨f, rfl, hsim⟩
  | cons a acts ih =>
    obtain ⟨g1, h1, h2⟩ := Res.bind_eq_ok.1 h
    obtain ⟨f1, r1, r2⟩ := step_sim hm hpre hmade hsim h1 (hs [a] acts g1 rfl (by simp only [run, h1, Res.bind_ok]))
    obtain ⟨f2, q1, q2⟩ := ih r2 (fun as bs g' e hr => hs (a :: as) bs g' (by rw [e]; rfl) (by simp only [run, h1, Res.bind_ok, hr])) h2
    exact ⟨f2, by simp only [Flat.run, r1, Option.bind_some, q1], q2⟩

theorem run_defined (hm : Implements Safe ops I) (hall : ∀ h, Safe h) (hmade : ∃ m, made = .ok m ∧ I [] m) (acts : List (Act C D))
    {f f' : Flat C D} (hsim : Sim I g f) (h : Flat.run acts f = some f') : ∃ g', run ops made w acts g = .ok g' := by
  induction acts generalizing g f with
  | nil => exact ⟨g, rfl⟩
  | cons a acts ih =>
    obtain ⟨f1, h1, h2⟩ := Option.bind_eq_some_iff.1 h
    obtain ⟨g1, r1⟩ := step_defined hm hall hmade hsim h1 (w := w)
    obtain ⟨f1', q1, q2⟩ := step_sim hm (fun _ _ _ => hall _) hmade hsim r1 (fun _ _ => hall _)
    rw [h1] at q1
    cases q1
    obtain ⟨g2, r2⟩ := ih q2 h2
    exact ⟨g2, by simp only [run, r1, Res.bind_ok, r2]⟩

end Scoped
end Coil
