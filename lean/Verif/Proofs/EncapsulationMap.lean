import Verif.Proofs.NamesOnly
import Verif.Proofs.EncapsulationStep

/-!
# The subsystem: the hash map as it is handles all histories of this program

Only the names matter (`along_recast`), and between two commands of the user there are only three shapes of the map.
-/

namespace Coil
open Spec UMap

/-! ## A check for one history -/

/-- The chain of a bucket ends. -/
def chainEnds {K V : Type} (nodes : List (UNode K V)) : Nat → Option Nat → Bool
  | _, none => true
  | 0, some _ => false
  | fuel + 1, some i =>
    match nodes[i]? with
    | some nd => chainEnds nodes fuel nd.next
    | none => false

theorem findLoop_ends {K V : Type} [DecidableEq K] {nodes : List (UNode K V)} (k : K) {fuel : Nat} {i : Option Nat} (h : chainEnds nodes fuel i = true) :
    ∃ o, findLoop nodes k fuel i = .ok o := by
  induction fuel generalizing i with
  | zero =>
    cases i with
    | none => exact ⟨none, rfl⟩
    | some i => cases h
  | succ fuel ih =>
    cases i with
    | none => exact ⟨none, rfl⟩
    | some i =>
      simp only [chainEnds] at h
      simp only [findLoop, readAt]
      cases hn : nodes[i]? with
      | none => rw [hn] at h; cases h
      | some nd =>
        rw [hn] at h
        simp only [Res.bind_ok]
        split
        · exact ⟨_, rfl⟩
        · exact ih h

/-- All chains end. -/
def chainsEnd (m : UMap Bytes Unit) : Bool := !m.buckets.isEmpty && m.buckets.all (chainEnds m.nodes (m.nodes.length + 1))

theorem find_ends {hash : Bytes → Nat} {m : UMap Bytes Unit} (h : chainsEnd m = true) (k : Bytes) : ∃ o, find hash m k = .ok o := by
  simp only [chainsEnd, Bool.and_eq_true, Bool.not_eq_true', List.isEmpty_eq_false_iff, List.all_eq_true] at h
  have hpos : 0 < m.buckets.length := List.length_pos_iff.2 h.1
  have hlt : hash k % m.buckets.length < m.buckets.length := Nat.mod_lt _ hpos
  obtain ⟨o, ho⟩ := findLoop_ends k (h.2 _ (List.getElem_mem hlt))
  have hi : findIndex hash m k = .ok o := by
    simp only [findIndex, bucketOf, if_neg (Nat.ne_of_gt hpos), Res.bind_ok, readAt_of_lt hlt, ho]
  cases o with
  | none => exact ⟨none, by simp [find, hi]⟩
  | some i =>
    obtain ⟨nd, h1, _⟩ := findIndex_key hi
    exact ⟨some nd.value, by simp [find, hi, readAt, h1]⟩

/-- The dictionary with these keys. -/
def keysDict (ks : List Bytes) : Bytes → Option Unit := fun k => if k ∈ ks then some () else none

/-- The keys of a dictionary after more operations. -/
def keysStep (ks : List Bytes) : DictOp Bytes Unit → List Bytes
  | .put k _ => if k ∈ ks then ks else ks ++ [k]
  | .erase k => ks.filter (fun x => decide (x ≠ k))
  | .clear => []

theorem keysDict_step (ks : List Bytes) (op : DictOp Bytes Unit) : dictStep (keysDict ks) op = keysDict (keysStep ks op) := by
  funext x
  cases op with
  | put k u =>
    by_cases h : x = k
    · subst h
      by_cases hx : x ∈ ks <;> simp [dictStep, keysDict, keysStep, hx]
    · by_cases hx : k ∈ ks <;> simp [dictStep, keysDict, keysStep, h, hx]
  | erase k => by_cases h : x = k <;> simp [dictStep, keysDict, keysStep, h]
  | clear => simp [dictStep, keysDict, keysStep]

/-- The map holds the keys and no others. -/
def holds (hash : Bytes → Nat) (m : UMap Bytes Unit) (ks : List Bytes) : Bool :=
  chainsEnd m && ks.all (fun k => decide (find hash m k = .ok (some ()))) && m.nodes.all (fun nd => decide (nd.key ∈ ks))

theorem holds_find {hash : Bytes → Nat} {m : UMap Bytes Unit} {ks : List Bytes} (h : holds hash m ks = true) (k : Bytes) :
    find hash m k = .ok (keysDict ks k) := by
  simp only [holds, Bool.and_eq_true, List.all_eq_true, decide_eq_true_eq] at h
  obtain ⟨⟨h1, h2⟩, h3⟩ := h
  by_cases hk : k ∈ ks
  · rw [h2 k hk]
    simp [keysDict, hk]
  · obtain ⟨o, ho⟩ := find_ends (hash := hash) h1 k
    cases o with
    | none => rw [ho]; simp [keysDict, hk]
    | some u =>
      have := find_mem ho
      simp only [entries, List.mem_map, Prod.mk.injEq] at this
      obtain ⟨nd, hnd, e, _⟩ := this
      rw [← e] at hk
      exact absurd (h3 nd hnd) hk

/-! ## The three shapes -/

variable {charSigned : Bool}

/-- The first two registrations. -/
def shapeStart : List (DictOp Bytes Unit) := [.put (lit "create_subsystem") (), .put (lit "destroy_subsystem") ()]

/-- The registration of a subsystem. -/
def shapeAdds : List (DictOp Bytes Unit) := subsystemNames.map (fun n => .put n ())

/-- The removal of a subsystem. -/
def shapeRemoves : List (DictOp Bytes Unit) := subsystemNames.map (fun n => .erase n)

/-- A map with its keys. -/
abbrev Keyed := UMap Bytes Unit × List Bytes

/-- Operations on a map with its keys; `none` if some step goes wrong. -/
def shapeRun (charSigned : Bool) : Keyed → List (DictOp Bytes Unit) → Option Keyed
  | s, [] => some s
  | s, op :: ops =>
    match applyOp false (djb2 charSigned) overOne s.1 op with
    | .ok m => if holds (djb2 charSigned) m (keysStep s.2 op) = true then shapeRun charSigned (m, keysStep s.2 op) ops else none
    | _ => none

/-- The history leads to this map, and was handled all along. -/
def Leads (charSigned : Bool) (ops : List (DictOp Bytes Unit)) (s : Keyed) : Prop :=
  RightAlong false (djb2 charSigned) overOne ops ∧ mapAfter false (djb2 charSigned) overOne 1 ops = .ok s.1 ∧ dictAfter ops = keysDict s.2

theorem leads_run {ops more : List (DictOp Bytes Unit)} {s s' : Keyed} (h : Leads charSigned ops s) (hr : shapeRun charSigned s more = some s') :
    Leads charSigned (ops ++ more) s' := by
  induction more generalizing ops s with
  | nil =>
    cases hr
    simpa using h
  | cons op more ih =>
    simp only [shapeRun] at hr
    cases hm : applyOp false (djb2 charSigned) overOne s.1 op with
    | ub u => rw [hm] at hr; cases hr
    | diverge => rw [hm] at hr; cases hr
    | ok m =>
      rw [hm] at hr
      simp only at hr
      split at hr
      · rename_i hh
        have h1 : mapAfter false (djb2 charSigned) overOne 1 (ops ++ [op]) = .ok m := by rw [mapAfter_concat h.2.1, hm]
        have h2 : dictAfter (ops ++ [op]) = keysDict (keysStep s.2 op) := by rw [dictAfter_concat, h.2.2, keysDict_step]
        have h3 : Leads charSigned (ops ++ [op]) (m, keysStep s.2 op) := by
          refine ⟨fun p hp => ?_, h1, h2⟩
          rcases List.prefix_concat_iff.1 hp with e | e
          · rw [e]
            exact ⟨m, h1, fun k => by rw [h2]; exact holds_find hh k⟩
          · exact h.1 p e
        have := ih h3 hr
        simpa using this
      · cases hr

/-- The shapes between two commands: before the first subsystem, with the commands of a subsystem, without them again. -/
def shapes (charSigned : Bool) : Option (List Keyed) := do
  let s0 ← shapeRun charSigned (⟨[none], []⟩, []) shapeStart
  let s1 ← shapeRun charSigned s0 shapeAdds
  let s2 ← shapeRun charSigned s1 shapeRemoves
  some [s0, s1, s2]

/-- There are no other shapes. -/
def closed (charSigned : Bool) : Bool :=
  match shapes charSigned with
  | none => false
  | some l => l.all fun s =>
    (match shapeRun charSigned s shapeAdds with | some s' => decide (s' ∈ l) | none => false) &&
    (match shapeRun charSigned s shapeRemoves with | some s' => decide (s' ∈ l) | none => false)

theorem closed_true : closed charSigned = true := by
  cases charSigned <;> decide +kernel

/-- The operations of a history, without the values. -/
abbrev namesOnly (h : List (RegEvent SubCode Nat)) : List (DictOp Bytes Unit) := (h.map asDictOp).map (recastOp fun _ => ())

theorem leads_chapters {h : List (RegEvent SubCode Nat)} (hc : Chapters h) :
    ∃ l s, shapes charSigned = some l ∧ s ∈ l ∧ Leads charSigned (namesOnly h) s := by
  have hcl := closed_true (charSigned := charSigned)
  unfold closed at hcl
  cases hl : shapes charSigned with
  | none => rw [hl] at hcl; cases hcl
  | some l =>
    rw [hl] at hcl
    simp only [List.all_eq_true, Bool.and_eq_true] at hcl
    refine ⟨l, ?_⟩
    induction hc with
    | start =>
      simp only [shapes, Option.bind_eq_bind, Option.bind_eq_some_iff] at hl
      obtain ⟨s0, h0, s1, _, s2, _, e⟩ := hl
      cases e
      refine ⟨s0, rfl, by simp, ?_⟩
      have : Leads charSigned ([] ++ shapeStart) s0 := leads_run (s := (⟨[none], []⟩, [])) ⟨?_, rfl, by funext k; simp [dictAfter, keysDict]⟩ h0
      · exact this
      · intro p hp
        rw [List.prefix_nil.1 hp]
        exact ⟨_, rfl, fun k => by simp [find, findIndex, bucketOf, readAt, dictAfter, Nat.mod_one, findLoop]⟩
    | adds _ ih =>
      obtain ⟨s, _, hs, ht⟩ := ih
      have := (hcl s hs).1
      cases hr : shapeRun charSigned s shapeAdds with
      | none => rw [hr] at this; cases this
      | some s' =>
        rw [hr] at this
        refine ⟨s', rfl, by simpa using this, ?_⟩
        have := leads_run ht hr
        simpa [namesOnly, shapeAdds, subsystemNames, asDictOp, recastOp] using this
    | removes _ ih =>
      obtain ⟨s, _, hs, ht⟩ := ih
      have := (hcl s hs).2
      cases hr : shapeRun charSigned s shapeRemoves with
      | none => rw [hr] at this; cases this
      | some s' =>
        rw [hr] at this
        refine ⟨s', rfl, by simpa using this, ?_⟩
        have := leads_run ht hr
        simpa [namesOnly, shapeRemoves, subsystemNames, asDictOp, recastOp] using this

/-- The map as it is handles the histories of this program. -/
theorem chapters_traced {h : List (RegEvent SubCode Nat)} (hc : Chapters h) : Traced false charSigned overOne h := by
  obtain ⟨_, _, _, _, ht⟩ := leads_chapters (charSigned := charSigned) hc
  exact along_recast.1 ht.1

end Coil
