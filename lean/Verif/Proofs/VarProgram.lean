import Verif.Spec.VarProgram
import Verif.Proofs.Story
import Verif.Proofs.Swarm
import Verif.Proofs.Answered

/-!
# Programs of variables: lemmas
-/

namespace Coil
open Spec

variable {K W : Type} {T : K → Type} {V : Vars K T W} {cs : List (Bytes × VarKind K T)} {init : ∀ k, T k}

theorem valueAfter_same [DecidableEq K] (h : List (Σ k, T k)) (k : K) (x : T k) : valueAfter init (h ++ [⟨k, x⟩]) k = x := by
  simp [valueAfter, assigned]

theorem valueAfter_other [DecidableEq K] (h : List (Σ k, T k)) (k j : K) (x : T k) (hj : j ≠ k) : valueAfter init (h ++ [⟨k, x⟩]) j = valueAfter init h j := by
  simp [valueAfter, assigned, Ne.symm hj]

theorem varTable_functions (hn : (cs.map (·.1)).Nodup) {n : Bytes} {kind : VarKind K T} (h : (n, kind) ∈ cs) :
    Table.functions (varTable cs) n = some kind.codes := by
  induction cs with
  | nil => cases h
  | cons c cs ih =>
    simp only [List.map_cons, List.nodup_cons] at hn
    have hnone : ∀ {m : Bytes}, m ∉ cs.map (·.1) → Table.functions (varTable cs) m = none := by
      intro m hm
      cases hf : Table.functions (varTable cs) m with
      | none => rfl
      | some fs =>
        have := functions_mem hf
        simp only [varTable, List.mem_map, Prod.mk.injEq] at this
        obtain ⟨a, ha, rfl, _⟩ := this
        exact absurd (List.mem_map_of_mem ha) hm
    rcases List.mem_cons.1 h with rfl | h
    · simp only [varTable, List.map_cons, Table.functions]
      have := hnone hn.1
      simp only [varTable] at this
      rw [this]
      simp
    · have := ih hn.2 h
      simp only [varTable] at this
      simp only [varTable, List.map_cons, Table.functions, this]

theorem varTable_mem {n : Bytes} {fs : List (VarCode K T × Unit)} (h : Table.functions (varTable cs) n = some fs) :
    ∃ kind, (n, kind) ∈ cs ∧ fs = kind.codes := by
  have := functions_mem h
  simp only [varTable, List.mem_map, Prod.mk.injEq] at this
  obtain ⟨⟨m, kind⟩, ha, rfl, rfl⟩ := this
  exact ⟨kind, ha, rfl⟩

theorem vars_quiet : AllQuiet V.functions := by
  intro c xs
  cases c with
  | read k => exact .get fun _ => .ret
  | set k => exact .get fun _ => .set (.get fun _ => .ret)
  | change k f => exact .get fun _ => .set (.get fun _ => .ret)
  | line text => exact .get fun _ => .logline .ret

theorem vars_total (hc : ∀ k v, ∃ r, (V.conv k).fromString v = .ok r) : TotalTable V.functions (varTable cs) := by
  intro c _ f _
  obtain ⟨f, _⟩ := f
  cases f with
  | read k => exact ⟨fun p hp => (by cases hp), fun xs l w => ⟨_, _, _, .get .ret⟩⟩
  | set k =>
    refine ⟨fun p hp v => ?_, fun xs l w => ⟨_, _, _, .get (.set (.get .ret))⟩⟩
    rw [List.mem_singleton.1 hp]
    exact hc k v
  | change k f => exact ⟨fun p hp => (by cases hp), fun xs l w => ⟨_, _, _, .get (.set (.get .ret))⟩⟩
  | line text => exact ⟨fun p hp => (by cases hp), fun xs l w => ⟨_, _, _, .get (.logline .ret)⟩⟩

theorem set_first (kind : VarKind K T) {k : K} (hk : VarKind.about kind = some k) : FirstTaking V.functions 1 kind.codes (.set k, ()) := by
  cases kind with
  | plain j => cases hk; exact ⟨[_], [], rfl, rfl, by simp [Vars.functions]⟩
  | toggle j f => cases hk; exact ⟨[_], [], rfl, rfl, by simp [Vars.functions]⟩
  | line text => cases hk

theorem vars_keep [DecidableEq K] (ha : Apart V.ref) {w : W} {h : List (Σ k, T k)} (hk : ∀ k, (V.ref k).read w = valueAfter init h k) (k : K) (x : T k) :
    ∀ j, (V.ref j).read ((V.ref k).write x w) = valueAfter init (h ++ [⟨k, x⟩]) j := by
  intro j
  by_cases hj : j = k
  · subst hj
    rw [ha.same, valueAfter_same]
  · rw [ha.other _ _ _ _ hj, valueAfter_other _ _ _ _ hj, hk]

theorem vars_telltale [DecidableEq K] (ha : Apart V.ref) (hn : GoodNames cs) :
    Telltale V.functions (varTable cs) (VarTold V.conv cs init) (fun w h => ∀ k, (V.ref k).read w = valueAfter init h k) where
  known := by
    intro h h' i r o t
    cases t with
    | read hm => exact ⟨hn.1 _ hm, _, _, varTable_functions hn.2 hm, ⟨[], [_], rfl, rfl, by simp⟩, rfl⟩
    | assign hm hk hx =>
      refine ⟨hn.1 _ hm, _, _, varTable_functions hn.2 hm, set_first _ hk, ?_⟩
      simp only [Vars.functions, conversionErrors, hx]
    | toggle hm => exact ⟨hn.1 _ hm, _, _, varTable_functions hn.2 hm, ⟨[], [_], rfl, rfl, by simp⟩, rfl⟩
    | line hm => exact ⟨hn.1 _ hm, _, _, varTable_functions hn.2 hm, ⟨[], [], rfl, rfl, by simp⟩, rfl⟩
  does := by
    rintro w w' h ⟨nm, args, named⟩ fs ⟨c, u⟩ xs es e hk hfs hf hx hs
    obtain ⟨kind, hm, rfl⟩ := varTable_mem hfs
    dsimp only at hf hx hs hm
    have hmem := firstTaking_member hf
    cases c with
    | read k =>
      have hkind : kind = .plain k := by
        cases kind <;> simp [VarKind.codes] at hmem
        rw [hmem]
      subst hkind
      match args, hx with
      | [], hx =>
        have hs1 := says_get hs
        obtain ⟨rfl, rfl, rfl⟩ := says_ret hs1
        refine ⟨_, h, rfl, rfl, hk, ?_⟩
        show VarTold V.conv cs init h _ h (some ((V.conv k).toString ((V.ref k).read w'))) []
        rw [hk k]
        exact .read hm
    | set k =>
      have hab : VarKind.about kind = some k := by
        cases kind <;> simp [VarKind.codes] at hmem <;> simp [VarKind.about, hmem]
      match args, hx with
      | [a], hx =>
        obtain ⟨x, _⟩ := xs
        have hs1 := says_get hs
        have hs2 := says_set hs1
        have hs3 := says_get hs2
        obtain ⟨rfl, rfl, rfl⟩ := says_ret hs3
        refine ⟨_, h ++ [⟨k, x⟩], rfl, rfl, vars_keep ha hk k x, ?_⟩
        show VarTold V.conv cs init h _ _ (some ((V.conv k).toString ((V.ref k).read ((V.ref k).write x w)))) []
        rw [ha.same]
        exact .assign hm hab hx.1
    | change k f =>
      have hkind : kind = .toggle k f := by
        cases kind with
        | toggle j g => simp [VarKind.codes] at hmem; obtain ⟨rfl, h2⟩ := hmem; cases h2; rfl
        | plain j => simp [VarKind.codes] at hmem
        | line t => simp [VarKind.codes] at hmem
      subst hkind
      match args, hx with
      | [], hx =>
        have hs1 := says_get hs
        have hs2 := says_set hs1
        have hs3 := says_get hs2
        obtain ⟨rfl, rfl, rfl⟩ := says_ret hs3
        refine ⟨_, h ++ [⟨k, f ((V.ref k).read w)⟩], rfl, rfl, vars_keep ha hk k _, ?_⟩
        show VarTold V.conv cs init h _ _ (some ((V.conv k).toString ((V.ref k).read ((V.ref k).write (f ((V.ref k).read w)) w)))) []
        rw [ha.same, hk k]
        exact .toggle hm
    | line text =>
      have hkind : kind = .line text := by
        cases kind <;> simp [VarKind.codes] at hmem
        rw [hmem]
      subst hkind
      match args, hx with
      | [], hx =>
        have hs1 := says_get hs
        obtain ⟨es1, rfl, hs2⟩ := says_logline hs1
        obtain ⟨rfl, rfl, rfl⟩ := says_ret hs2
        refine ⟨(), h, rfl, rfl, hk, ?_⟩
        have hv : V.values w' = valueAfter init h := funext hk
        have := VarTold.line (conv := V.conv) (init := init) (h := h) (named := named) hm
        rw [← hv] at this
        have ho : outputOf [.logline (text (V.values w'))] = text (V.values w') ++ [10] := by
          rw [outputOf_logline, newline_text]
          simp [outputOf]
        rw [ho]
        exact this

/-! ## When the program answers -/

theorem vars_steady : Steady V.functions (varTable cs) (fun _ => True) where
  same := by
    rintro _ ⟨c, u⟩ xs l w v es e w' _ _ _ _ _
    dsimp only
    cases c with
    | read k => exact ⟨_, _, _, .get .ret⟩
    | set k => exact ⟨_, _, _, .get (.set (.get .ret))⟩
    | change k f => exact ⟨_, _, _, .get (.set (.get .ret))⟩
    | line text => exact ⟨_, _, _, .get (.logline .ret)⟩
  stays := by intros; trivial

/-- The commands that can be answered: all but assignments of a value whose conversion is not defined. -/
theorem vars_answerable (hn : GoodNames cs) (i : Input) : Answerable V.functions (varTable cs) (fun _ => True) i ↔
    ∀ kind k v, (i.name, kind) ∈ cs → VarKind.about kind = some k → i.arguments = [v] → ∃ r, (V.conv k).fromString v = .ok r := by
  constructor
  · intro h kind k v hm hk ha
    obtain ⟨h1, _⟩ := h _ _ (hn.1 _ hm) (varTable_functions hn.2 hm) (by rw [ha]; exact set_first kind hk)
    rw [ha] at h1
    exact h1.1
  · rintro h fs ⟨c, u⟩ _ hfs hf
    obtain ⟨kind, hm, rfl⟩ := varTable_mem hfs
    have hmem := firstTaking_member hf
    have hlen := firstTaking_length hf
    obtain ⟨nm, args, named⟩ := i
    dsimp only at hlen h hm ⊢
    cases c with
    | read k =>
      match args, hlen with
      | [], _ => exact ⟨trivial, fun xs _ w _ => ⟨_, _, _, .get .ret⟩⟩
    | set k =>
      have hab : VarKind.about kind = some k := by
        cases kind <;> simp [VarKind.codes] at hmem <;> simp [VarKind.about, hmem]
      match args, hlen with
      | [a], _ => exact ⟨⟨h kind k a hm hab rfl, trivial⟩, fun xs _ w _ => ⟨_, _, _, .get (.set (.get .ret))⟩⟩
    | change k f =>
      match args, hlen with
      | [], _ => exact ⟨trivial, fun xs _ w _ => ⟨_, _, _, .get (.set (.get .ret))⟩⟩
    | line text =>
      match args, hlen with
      | [], _ => exact ⟨trivial, fun xs _ w _ => ⟨_, _, _, .get (.logline .ret)⟩⟩

end Coil
