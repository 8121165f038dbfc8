import Verif.Spec.Swarm
import Verif.Proofs.Story
import Verif.Proofs.Pool
import Verif.Props.NamedCommands
import Verif.Proofs.FloatStable

/-!
# The particle system
-/

namespace Coil
open Spec

variable {tiny : Nat → Nat → Bool} {nan : Fl → Fl → Bool} {name sid : Bytes}

/-! ## Histories -/

theorem stepsOf_append (a b : List SwarmDeed) : stepsOf (a ++ b) = stepsOf a ++ stepsOf b := by simp [stepsOf]

theorem moved_more (id : Bytes) (p v : Point) (steps : List Fl) (dt : Fl) :
    moved nan id p v (steps ++ [dt]) =
      { moved nan id p v steps with pos := (moved nan id p v steps).pos.add nan ((moved nan id p v steps).vel.mul nan dt) } := by
  simp [moved, travel, Point.add, Point.mul]

theorem swarm_add (h : List SwarmDeed) (id : Bytes) (p v : Point) : swarm nan (h ++ [.add id p v]) = Mote.added (swarm nan h) id p v := by
  induction h with
  | nil => rfl
  | cons x h ih =>
    cases x with
    | add => simp only [List.cons_append, swarm, ih, stepsOf_append]; simp [stepsOf, Mote.added]
    | update | pivot => simpa [swarm] using ih

theorem swarm_update (h : List SwarmDeed) (dt : Fl) : swarm nan (h ++ [.update dt]) = Mote.update nan dt (swarm nan h) := by
  induction h with
  | nil => rfl
  | cons x h ih =>
    cases x with
    | add =>
      simp only [List.cons_append, swarm, ih, stepsOf_append, Mote.update]
      rw [show stepsOf [SwarmDeed.update dt] = [dt] from rfl, moved_more]
    | update | pivot => simpa [swarm] using ih

theorem swarm_pivot (h : List SwarmDeed) (p : Point) : swarm nan (h ++ [.pivot p]) = swarm nan h := by
  induction h with
  | nil => rfl
  | cons x h ih =>
    cases x with
    | add => simp only [List.cons_append, swarm, ih, stepsOf_append]; simp [stepsOf]
    | update | pivot => simpa [swarm] using ih

theorem pivotAfter_add (h : List SwarmDeed) (id : Bytes) (p v : Point) : pivotAfter (h ++ [.add id p v]) = pivotAfter h := by simp [pivotAfter]
theorem pivotAfter_update (h : List SwarmDeed) (dt : Fl) : pivotAfter (h ++ [.update dt]) = pivotAfter h := by simp [pivotAfter]
theorem pivotAfter_pivot (h : List SwarmDeed) (p : Point) : pivotAfter (h ++ [.pivot p]) = p := by simp [pivotAfter]

theorem get_none {l : List Mote} {id : Bytes} : Mote.get l id = none ↔ ∀ m ∈ l, m.id ≠ id := by
  induction l with
  | nil => simp [Mote.get]
  | cons m l ih =>
    simp only [Mote.get]
    split
    · rename_i h; simp [h]
    · rename_i h; rw [ih]; simp [h]

theorem get_some {l : List Mote} {id : Bytes} {m : Mote} (h : Mote.get l id = some m) : FirstMote l id m := by
  induction l with
  | nil => cases h
  | cons x l ih =>
    simp only [Mote.get] at h
    split at h
    · rename_i e; cases h; exact ⟨[], l, rfl, e, by simp⟩
    · rename_i e
      obtain ⟨pre, post, rfl, h1, h2⟩ := ih h
      exact ⟨x :: pre, post, rfl, h1, by simpa [e] using h2⟩

theorem firstMote_one {l : List Mote} {id : Bytes} {m n : Mote} (h1 : FirstMote l id m) (h2 : FirstMote l id n) : m = n := by
  obtain ⟨a, b, rfl, hm, ha⟩ := h1
  obtain ⟨a', b', e, hn, ha'⟩ := h2
  induction a generalizing a' with
  | nil =>
    cases a' with
    | nil => simp at e; exact e.1
    | cons y a' => simp at e; exact absurd (e.1 ▸ hm) (ha' y (by simp))
  | cons y a ih =>
    cases a' with
    | nil => simp at e; exact absurd (e.1 ▸ hn) (ha y (by simp))
    | cons y' a' =>
      simp at e
      exact ih (fun n hn => ha n (by simp [hn])) a' e.2 (fun n hn => ha' n (by simp [hn]))

/-! ## Texts -/

theorem point_text (p : Point) : p.text = pointText p := rfl

theorem fraction_nulFree {ds : Bytes} (h : NulFree ds) : NulFree (Fl.fraction ds) := by
  unfold NulFree at h ⊢
  unfold Fl.fraction
  split
  · simp
  · simp only [List.mem_cons, not_or]
    refine ⟨by decide, fun hc => h ?_⟩
    simp only [Fl.strip, List.mem_reverse] at hc
    have := (List.dropWhile_sublist _).subset hc
    simpa using this

theorem layoutG_nulFree {ds : Bytes} (h : NulFree ds) (x : Int) : NulFree (Fl.layoutG ds x) := by
  have ht : ∀ n, NulFree (ds.take n) := fun n hc => h (List.take_subset n ds hc)
  have hf : ∀ n, NulFree (Fl.fraction (ds.drop n)) := fun n => fraction_nulFree fun hc => h (List.drop_subset n ds hc)
  have hc : ∀ {c : Byte} {l : Bytes}, c ≠ 0 → NulFree l → NulFree (c :: l) := fun h0 hl hm => by
    rcases List.mem_cons.1 hm with e | hm
    · exact h0 e.symm
    · exact hl hm
  unfold Fl.layoutG
  split
  · split
    · exact nulFree_append.2 ⟨ht _, hf _⟩
    · refine hc (by decide) (fraction_nulFree (nulFree_append.2 ⟨?_, h⟩))
      intro hm
      exact absurd (List.eq_of_mem_replicate hm) (by decide)
  · refine nulFree_append.2 ⟨nulFree_append.2 ⟨nulFree_append.2 ⟨ht _, hf _⟩, ?_⟩, ?_⟩
    · split <;> (unfold NulFree; decide)
    · split
      · exact hc (by decide) (natDec_nulFree _)
      · exact natDec_nulFree _

theorem printG_nulFree (x : Fl) : NulFree (Fl.printG x) := by
  have hs : ∀ b, NulFree (Fl.signText b) := by intro b; cases b <;> (unfold NulFree; decide)
  unfold Fl.printG
  split
  · split
    · exact nulFree_append.2 ⟨hs _, by unfold NulFree; decide⟩
    · exact nulFree_append.2 ⟨hs _, layoutG_nulFree (natDec_nulFree _) _⟩
  · exact nulFree_append.2 ⟨hs _, by unfold NulFree; decide⟩
  · exact nulFree_append.2 ⟨hs _, by unfold NulFree; decide⟩

theorem pointText_nulFree (p : Point) : NulFree (pointText p) := by
  simp only [pointText, nulFree_append]
  refine ⟨⟨⟨⟨?_, printG_nulFree _⟩, ?_⟩, printG_nulFree _⟩, ?_⟩ <;> (unfold NulFree; decide)

/-! ## Reading -/

theorem point_iff {v : Value} {p : Point} : (pointConv tiny name).fromString v = .ok (.ok p) ↔ ReadsPoint tiny v p := by
  obtain ⟨l⟩ := v
  constructor
  · intro h
    match l, h with
    | [a, b], h =>
      simp only [pointConv] at h
      obtain ⟨x, hx, h⟩ := Res.bind_eq_ok.1 h
      obtain ⟨y, hy, h⟩ := Res.bind_eq_ok.1 h
      cases x with
      | error => cases h
      | ok x =>
        cases y with
        | error => cases h
        | ok y => cases h; exact ⟨a, b, rfl, hx, hy⟩
    | [], h | [_], h | _ :: _ :: _ :: _, h => simp [pointConv] at h
  · rintro ⟨a, b, e, hx, hy⟩
    cases e
    unfold ReadsFloat at hx hy
    simp only [pointConv, hx, hy, Res.bind_ok]

theorem point_total (v : Value) : ∃ r, (pointConv tiny name).fromString v = .ok r := by
  unfold pointConv
  simp only
  split
  · rename_i a b _
    obtain ⟨x, hx⟩ := single_defined (tiny := tiny) ⟨[a]⟩
    obtain ⟨y, hy⟩ := single_defined (tiny := tiny) ⟨[b]⟩
    rw [hx, hy]
    cases x <;> cases y <;> exact ⟨_, rfl⟩
  · exact ⟨_, rfl⟩

theorem floats_iff {v : Value} {xs : List Fl} : (vecConv (singleConv tiny)).fromString v = .ok (.ok xs) ↔ Forall2 (ReadsFloat tiny) v.subvalues xs :=
  C17_vector_ok_iff (singleConv tiny) rfl v xs

theorem single_reads {v : Value} {x : Fl} (h : (singleConv tiny).fromString v = .ok (.ok x)) : ∃ t, v = ⟨[t]⟩ ∧ ReadsFloat tiny t x := by
  obtain ⟨l⟩ := v
  match l, h with
  | [t], h => exact ⟨t, rfl, h⟩
  | [], h | _ :: _ :: _, h => simp [singleConv, floatConv, arithConv] at h

theorem leftSum_eq (xs : List Fl) : leftSum nan xs = accumulateF .single nan xs (.fin false 0 Fmt.single.emin) := by
  have : ∀ (xs : List Fl) (a : Fl), xs.foldl (fun a x => Fl.add .single nan a x) a = accumulateF .single nan xs a := by
    intro xs
    induction xs with
    | nil => exact fun _ => rfl
    | cons x xs ih => exact fun a => ih _
  exact this _ _

theorem floats_total (v : Value) : ∃ r, (vecConv (singleConv tiny)).fromString v = .ok r := by
  have : ∀ (n : Bytes) (l : List Bytes) (acc : List Fl), ∃ r, vecLoop (singleConv tiny) n v l acc = .ok r := by
    intro n l
    induction l with
    | nil => exact fun acc => ⟨_, rfl⟩
    | cons s l ih =>
      intro acc
      obtain ⟨x, hx⟩ := single_defined (tiny := tiny) ⟨[s]⟩
      simp only [vecLoop, onTemporary_eq (c := singleConv tiny) rfl, hx, Res.bind_ok]
      cases x with
      | error => exact ⟨_, rfl⟩
      | ok x => exact ih _
  exact this _ _ _

theorem maybe_iff {v : Value} {o : Option Fl} : (optConv (singleConv tiny)).fromString v = .ok (.ok o) ↔
    (o = none ∧ v.subvalues.head?.getD [] = []) ∨ ∃ t rest x, v = ⟨t :: rest⟩ ∧ t ≠ [] ∧ ReadsFloat tiny t x ∧ o = some x := by
  obtain ⟨l⟩ := v
  match l with
  | [] => simp [optConv, eq_comm]
  | t :: rest =>
    by_cases ht : t = []
    · simp [optConv, ht, eq_comm]
    · obtain ⟨x, hx⟩ := single_defined (tiny := tiny) ⟨[t]⟩
      simp only [optConv, ht, if_false, onTemporary_eq (c := singleConv tiny) rfl, hx, Res.bind_ok, ReadsFloat]
      cases x with
      | error e =>
        simp [ht]
        intro x h
        rw [hx] at h
        cases h
      | ok x =>
        simp [ht]
        constructor
        · rintro rfl; exact ⟨x, hx, rfl⟩
        · rintro ⟨y, hy, rfl⟩
          rw [hx] at hy
          cases hy
          rfl

theorem maybe_total (v : Value) : ∃ r, (optConv (singleConv tiny)).fromString v = .ok r := by
  obtain ⟨l⟩ := v
  match l with
  | [] => exact ⟨_, rfl⟩
  | t :: rest =>
    by_cases ht : t = []
    · simp [optConv, ht]
    · obtain ⟨x, hx⟩ := single_defined (tiny := tiny) ⟨[t]⟩
      simp only [optConv, ht, if_false, onTemporary_eq (c := singleConv tiny) rfl, hx, Res.bind_ok]
      cases x <;> exact ⟨_, rfl⟩

/-! ## The functions -/

theorem swarm_quiet : AllQuiet (swarmFunctions tiny nan name sid) := by
  intro c xs
  cases c with
  | add | update => exact .get fun _ => .set .ret
  | get | pivot => exact .get fun _ => .ret
  | setPivot => exact .get fun _ => .set (.get fun _ => .ret)
  | sumAll | orPi => exact .ret
  | list =>
    refine .logline (.logline (.get fun w => ?_))
    induction w.motes with
    | nil => exact .ret
    | cons m l ih => exact .logline ih

theorem list_says {l : List Named} {w : SwarmWorld} : ∀ (motes : List Mote) (past : List CtxEvent),
    ∃ es, Says (C := SwarmCode) () l past (listMotes motes) w es (.ret ()) w
  | [], past => ⟨[], .ret⟩
  | m :: motes, past => by
    obtain ⟨es, h⟩ := list_says motes (past ++ [.logline (cstr m.id ++ lit "\t" ++ cstr m.pos.text ++ lit "\t" ++ cstr m.vel.text)])
    exact ⟨_, .logline h⟩

theorem says_logline {W C D R : Type} {x : D} {l : List Named} {past es : List CtxEvent} {t : Bytes} {k : Prog W C D R} {w w' : W} {e : End R}
    (h : Says x l past (.logline t k) w es e w') : ∃ es', es = .logline t :: es' ∧ Says x l (past ++ [.logline t]) k w es' e w' := by
  cases h with | logline h => exact ⟨_, rfl, h⟩

theorem outputOf_logline (t : Bytes) (es : List CtxEvent) : outputOf (.logline t :: es) = t ++ lit "\n" ++ outputOf es := rfl

theorem tab_text : lit "\t" = [9] := by decide +kernel

theorem newline_text : lit "\n" = [10] := by decide +kernel

theorem header_text : lit "ID\tPos\tVel\n--\t---\t---\n" = lit "ID\tPos\tVel" ++ lit "\n" ++ (lit "--\t---\t---" ++ lit "\n") := by decide +kernel

theorem says_list {l : List Named} {w w' : SwarmWorld} {motes : List Mote} {past es : List CtxEvent} {e : End Unit}
    (h : Says (C := SwarmCode) () l past (listMotes motes) w es e w') :
    e = .ret () ∧ w' = w ∧ errorsOf es = [] ∧ outputOf es = (motes.map moteLine).flatten := by
  induction motes generalizing past es with
  | nil => obtain ⟨rfl, rfl, rfl⟩ := says_ret h; exact ⟨rfl, rfl, rfl, rfl⟩
  | cons m motes ih =>
    obtain ⟨es, rfl, h'⟩ := says_logline h
    obtain ⟨h1, h2, h3, h4⟩ := ih h'
    refine ⟨h1, h2, h3, ?_⟩
    rw [point_text, point_text, cstr_of_nulFree (pointText_nulFree _), cstr_of_nulFree (pointText_nulFree _)]
    rw [outputOf_logline, h4, List.map_cons, List.flatten_cons, moteLine, tab_text, newline_text]
    rfl

theorem says_table {l : List Named} {w w' : SwarmWorld} {t1 t2 : Bytes} {es : List CtxEvent} {e : End Unit}
    (h : Says (C := SwarmCode) () l [] (.logline t1 (.logline t2 (.get fun w => listMotes w.motes))) w es e w') :
    e = .ret () ∧ w' = w ∧ errorsOf es = [] ∧ outputOf es = t1 ++ lit "\n" ++ (t2 ++ lit "\n") ++ (w.motes.map moteLine).flatten := by
  obtain ⟨es1, rfl, h1⟩ := says_logline h
  obtain ⟨es2, rfl, h2⟩ := says_logline h1
  obtain ⟨g0, g1, g2, g3⟩ := says_list (says_get h2)
  refine ⟨g0, g1, g2, ?_⟩
  rw [outputOf_logline, outputOf_logline, g3, ← List.append_assoc]

theorem swarm_total : TotalTable (swarmFunctions tiny nan name sid) swarmTable := by
  have hstr : ∀ v, ∃ r, stringConv.fromString v = .ok r := by
    rintro ⟨l⟩
    match l with
    | [] => exact ⟨_, rfl⟩
    | [_] => exact ⟨_, rfl⟩
    | _ :: _ :: _ => exact ⟨_, rfl⟩
  intro c _ f _
  obtain ⟨f, _⟩ := f
  refine ⟨?_, ?_⟩
  · cases f with
    | add =>
      intro p hp
      simp only [swarmFunctions, List.mem_cons, List.not_mem_nil, or_false] at hp
      rcases hp with rfl | rfl | rfl
      · exact hstr
      · exact point_total
      · exact point_total
    | get => intro p hp; rw [List.mem_singleton.1 hp]; exact hstr
    | update => intro p hp; rw [List.mem_singleton.1 hp]; exact single_defined
    | setPivot => intro p hp; rw [List.mem_singleton.1 hp]; exact point_total
    | sumAll => intro p hp; rw [List.mem_singleton.1 hp]; exact floats_total
    | orPi => intro p hp; rw [List.mem_singleton.1 hp]; exact maybe_total
    | list | pivot => intro p hp; cases hp
  · intro xs l w
    cases f with
    | add | update => exact ⟨_, _, _, .get (.set .ret)⟩
    | get | pivot => exact ⟨_, _, _, .get .ret⟩
    | setPivot => exact ⟨_, _, _, .get (.set (.get .ret))⟩
    | sumAll | orPi => exact ⟨_, _, _, .ret⟩
    | list =>
      obtain ⟨es, h⟩ := list_says (l := l) (w := w) w.motes ([] ++ [.logline (lit "ID\tPos\tVel")] ++ [.logline (lit "--\t---\t---")])
      exact ⟨_, _, _, .logline (.logline (.get h))⟩

theorem swarm_add_fn : Table.functions swarmTable (lit "particles.add") = some [(.add, ())] := by decide +kernel
theorem swarm_get_fn : Table.functions swarmTable (lit "particles.get") = some [(.get, ())] := by decide +kernel
theorem swarm_update_fn : Table.functions swarmTable (lit "particles.update") = some [(.update, ())] := by decide +kernel
theorem swarm_list_fn : Table.functions swarmTable (lit "particles.list") = some [(.list, ())] := by decide +kernel
theorem swarm_pivot_fn : Table.functions swarmTable (lit "pivot") = some [(.pivot, ()), (.setPivot, ())] := by decide +kernel
theorem swarm_sum_fn : Table.functions swarmTable (lit "sum_all") = some [(.sumAll, ())] := by decide +kernel
theorem swarm_pi_fn : Table.functions swarmTable (lit "get_arg_or_pi") = some [(.orPi, ())] := by decide +kernel

theorem orPi_text : (singleConv tiny).toString orPiF = lit "3.14" := by
  have h1 : Fl.almostZero orPiF = false := by decide +kernel
  have h2 : Fl.printG orPiF = lit "3.14" := by decide +kernel
  have h3 : (singleConv tiny).toString orPiF = Fl.printG orPiF := Floats.toString_print h1
  exact h3.trans h2

theorem swarm_telltale : Telltale (swarmFunctions tiny nan name sid) swarmTable (SwarmTold tiny nan) (SwarmKeeps nan) where
  known := by
    intro h h' i r o t
    cases t with
    | add hp hv =>
      refine ⟨by dsimp only; decide +kernel, _, _, swarm_add_fn, ⟨[], [], rfl, rfl, by simp⟩, ?_⟩
      simp only [swarmFunctions, conversionErrors, point_iff.2 hp, point_iff.2 hv]
      rfl
    | got | missing => exact ⟨by dsimp only; decide +kernel, _, _, swarm_get_fn, ⟨[], [], rfl, rfl, by simp⟩, rfl⟩
    | update ht =>
      refine ⟨by dsimp only; decide +kernel, _, _, swarm_update_fn, ⟨[], [], rfl, rfl, by simp⟩, ?_⟩
      unfold ReadsFloat at ht
      simp only [swarmFunctions, conversionErrors, ht]
    | list => exact ⟨by dsimp only; decide +kernel, _, _, swarm_list_fn, ⟨[], [], rfl, rfl, by simp⟩, rfl⟩
    | pivot => exact ⟨by dsimp only; decide +kernel, _, _, swarm_pivot_fn, ⟨[], [_], rfl, rfl, by simp⟩, rfl⟩
    | setPivot hp =>
      refine ⟨by dsimp only; decide +kernel, _, _, swarm_pivot_fn, ⟨[_], [], rfl, rfl, by simp [swarmFunctions]⟩, ?_⟩
      simp only [swarmFunctions, conversionErrors, point_iff.2 hp]
    | sum hx =>
      refine ⟨by dsimp only; decide +kernel, _, _, swarm_sum_fn, ⟨[], [], rfl, rfl, by simp⟩, ?_⟩
      simp only [swarmFunctions, sumAllDef, conversionErrors, floats_iff.2 hx]
    | noPi ht hx =>
      refine ⟨by dsimp only; decide +kernel, _, _, swarm_pi_fn, ⟨[], [], rfl, rfl, by simp⟩, ?_⟩
      simp only [swarmFunctions, conversionErrors, maybe_iff.2 (.inr ⟨_, _, _, rfl, ht, hx, rfl⟩)]
    | pi hv =>
      refine ⟨by dsimp only; decide +kernel, _, _, swarm_pi_fn, ⟨[], [], rfl, rfl, by simp⟩, ?_⟩
      simp only [swarmFunctions, conversionErrors, maybe_iff.2 (.inl ⟨rfl, hv⟩)]
  does := by
    rintro w w' h ⟨nm, args, named⟩ fs ⟨c, u⟩ xs es e ⟨k1, k2⟩ hfs hf hx hs
    have hmem := firstTaking_member hf
    have hm := functions_mem hfs
    simp only [swarmTable, List.mem_cons, List.not_mem_nil, or_false, Prod.mk.injEq] at hm
    dsimp only at hf hx hs
    rcases hm with ⟨rfl, rfl⟩ | ⟨rfl, rfl⟩ | ⟨rfl, rfl⟩ | ⟨rfl, rfl⟩ | ⟨rfl, rfl⟩ | ⟨rfl, rfl⟩ | ⟨rfl, rfl⟩ <;>
      simp only [List.mem_cons, List.not_mem_nil, or_false, Prod.mk.injEq] at hmem
    · obtain ⟨rfl, _⟩ := hmem
      match args, hx with
      | [a, b, d], hx =>
        obtain ⟨x, y, z, _⟩ := xs
        have hv := string_reads.1 hx.1
        subst hv
        have hs := says_get hs
        have hs := says_set hs
        obtain ⟨rfl, rfl, rfl⟩ := says_ret hs
        refine ⟨_, h ++ [.add x y z], rfl, rfl, ⟨?_, ?_⟩, .add (point_iff.1 hx.2.1) (point_iff.1 hx.2.2.1)⟩
        · rw [swarm_add, ← k1]
        · rw [pivotAfter_add, ← k2]
    · obtain ⟨rfl, _⟩ := hmem
      match args, hx with
      | [a], hx =>
        obtain ⟨x, _⟩ := xs
        have hv := string_reads.1 hx.1
        subst hv
        have hs := says_get hs
        obtain ⟨rfl, rfl, rfl⟩ := says_ret hs
        refine ⟨_, h, rfl, rfl, ⟨k1, k2⟩, ?_⟩
        show SwarmTold tiny nan h _ h (some (Mote.pointerText (Mote.get w'.motes x))) []
        cases hg : Mote.get w'.motes x with
        | none => exact .missing (by rw [← k1]; exact get_none.1 hg)
        | some m => exact .got (by rw [← k1]; exact get_some hg)
    · obtain ⟨rfl, _⟩ := hmem
      match args, hx with
      | [a], hx =>
        obtain ⟨x, _⟩ := xs
        obtain ⟨t, rfl, ht⟩ := single_reads hx.1
        have hs := says_get hs
        have hs := says_set hs
        obtain ⟨rfl, rfl, rfl⟩ := says_ret hs
        refine ⟨_, h ++ [.update x], rfl, rfl, ⟨?_, ?_⟩, .update ht⟩
        · rw [swarm_update, ← k1]
        · rw [pivotAfter_update, ← k2]
    · obtain ⟨rfl, _⟩ := hmem
      match args, hx with
      | [], hx =>
        obtain ⟨g0, rfl, g1, g2⟩ := says_table hs
        refine ⟨(), h, g0, g1, ⟨k1, k2⟩, ?_⟩
        rw [g2, k1, ← header_text]
        exact .list
    · rcases hmem with ⟨rfl, _⟩ | ⟨rfl, _⟩
      · match args, hx with
        | [], hx =>
          have hs := says_get hs
          obtain ⟨rfl, rfl, rfl⟩ := says_ret hs
          refine ⟨_, h, rfl, rfl, ⟨k1, k2⟩, ?_⟩
          show SwarmTold tiny nan h _ h (some (pointText w'.pivot)) []
          rw [k2]
          exact .pivot
      · match args, hx with
        | [a], hx =>
          obtain ⟨x, _⟩ := xs
          have hs := says_get hs
          have hs := says_set hs
          have hs := says_get hs
          obtain ⟨rfl, rfl, rfl⟩ := says_ret hs
          refine ⟨_, h ++ [.pivot x], rfl, rfl, ⟨?_, ?_⟩, .setPivot (point_iff.1 hx.1)⟩
          · rw [swarm_pivot, ← k1]; rfl
          · rw [pivotAfter_pivot]; rfl
    · obtain ⟨rfl, _⟩ := hmem
      match args, hx with
      | [a], hx =>
        obtain ⟨x, _⟩ := xs
        obtain ⟨rfl, rfl, rfl⟩ := says_ret hs
        refine ⟨_, h, rfl, rfl, ⟨k1, k2⟩, ?_⟩
        have := SwarmTold.sum (nan := nan) (h := h) (named := named) (floats_iff.1 hx.1)
        rwa [leftSum_eq] at this
    · obtain ⟨rfl, _⟩ := hmem
      match args, hx with
      | [a], hx =>
        obtain ⟨x, _⟩ := xs
        have hpi := orPi_text (tiny := tiny)
        simp only [swarmFunctions] at hs hx ⊢
        generalize orPiF = q at hpi hs ⊢
        obtain ⟨rfl, rfl, rfl⟩ := says_ret hs
        refine ⟨_, h, rfl, rfl, ⟨k1, k2⟩, ?_⟩
        rcases maybe_iff.1 hx.1 with ⟨rfl, hv⟩ | ⟨t, rest, y, rfl, h1, h2, rfl⟩
        · have hp := SwarmTold.pi (tiny := tiny) (nan := nan) (h := h) (named := named) hv
          rw [← hpi] at hp
          exact hp
        · exact .noPi h1 h2

/-- What a told command is. -/
theorem swarm_inv {h h' : List SwarmDeed} {i : Input} {r : Option Bytes} {o : Bytes} (t : SwarmTold tiny nan h i h' r o) :
    (i.name = lit "particles.add" ∧ ∃ id vp vv p v, i.arguments = [⟨[id]⟩, vp, vv] ∧ ReadsPoint tiny vp p ∧ ReadsPoint tiny vv v ∧
      h' = h ++ [.add id p v] ∧ r = none ∧ o = []) ∨
    (i.name = lit "particles.get" ∧ ∃ id, i.arguments = [⟨[id]⟩] ∧ h' = h ∧ o = [] ∧
      ((∃ m, FirstMote (swarm nan h) id m ∧ r = some (moteText m)) ∨ ((∀ m ∈ swarm nan h, m.id ≠ id) ∧ r = some (lit "null")))) ∨
    (i.name = lit "particles.update" ∧ ∃ t dt, i.arguments = [⟨[t]⟩] ∧ ReadsFloat tiny t dt ∧ h' = h ++ [.update dt] ∧ r = none ∧ o = []) ∨
    (i.name = lit "particles.list" ∧ h' = h ∧ r = none ∧ o = lit "ID\tPos\tVel\n--\t---\t---\n" ++ ((swarm nan h).map moteLine).flatten) ∨
    (i.name = lit "pivot" ∧ o = [] ∧ ((i.arguments = [] ∧ h' = h ∧ r = some (pointText (pivotAfter h))) ∨
      ∃ v p, i.arguments = [v] ∧ ReadsPoint tiny v p ∧ h' = h ++ [.pivot p] ∧ r = some (pointText p))) ∨
    (i.name = lit "sum_all" ∧ ∃ v xs, i.arguments = [v] ∧ Forall2 (ReadsFloat tiny) v.subvalues xs ∧ h' = h ∧
      r = some ((singleConv tiny).toString (leftSum nan xs)) ∧ o = []) ∨
    (i.name = lit "get_arg_or_pi" ∧ ∃ v, i.arguments = [v] ∧ h' = h ∧ o = [] ∧
      ((∃ t rest x, v = ⟨t :: rest⟩ ∧ t ≠ [] ∧ ReadsFloat tiny t x ∧ r = some ((singleConv tiny).toString x)) ∨
        (v.subvalues.head?.getD [] = [] ∧ r = some (lit "3.14")))) := by
  cases t with
  | add hp hv => exact .inl ⟨rfl, _, _, _, _, _, rfl, hp, hv, rfl, rfl, rfl⟩
  | got hm => exact .inr (.inl ⟨rfl, _, rfl, rfl, rfl, .inl ⟨_, hm, rfl⟩⟩)
  | missing hm => exact .inr (.inl ⟨rfl, _, rfl, rfl, rfl, .inr ⟨hm, rfl⟩⟩)
  | update ht => exact .inr (.inr (.inl ⟨rfl, _, _, rfl, ht, rfl, rfl, rfl⟩))
  | list => exact .inr (.inr (.inr (.inl ⟨rfl, rfl, rfl, rfl⟩)))
  | pivot => exact .inr (.inr (.inr (.inr (.inl ⟨rfl, rfl, .inl ⟨rfl, rfl, rfl⟩⟩))))
  | setPivot hp => exact .inr (.inr (.inr (.inr (.inl ⟨rfl, rfl, .inr ⟨_, _, rfl, hp, rfl, rfl⟩⟩))))
  | sum hx => exact .inr (.inr (.inr (.inr (.inr (.inl ⟨rfl, _, _, rfl, hx, rfl, rfl, rfl⟩)))))
  | noPi h1 h2 => exact .inr (.inr (.inr (.inr (.inr (.inr ⟨rfl, _, rfl, rfl, rfl, .inl ⟨_, _, _, rfl, h1, h2, rfl⟩⟩)))))
  | pi hv => exact .inr (.inr (.inr (.inr (.inr (.inr ⟨rfl, _, rfl, rfl, rfl, .inr ⟨hv, rfl⟩⟩)))))

theorem readsFloat_one {t : Bytes} {x y : Fl} (h1 : ReadsFloat tiny t x) (h2 : ReadsFloat tiny t y) : x = y := by
  unfold ReadsFloat at h1 h2
  rw [h1] at h2
  simpa using h2

theorem readsPoint_one {v : Value} {p q : Point} (h1 : ReadsPoint tiny v p) (h2 : ReadsPoint tiny v q) : p = q := by
  have e1 := (point_iff (name := [])).2 h1
  rw [(point_iff (name := [])).2 h2] at e1
  simpa using e1.symm

theorem readsFloats_one {l : List Bytes} {xs ys : List Fl} (h1 : Forall2 (ReadsFloat tiny) l xs) (h2 : Forall2 (ReadsFloat tiny) l ys) : xs = ys := by
  have e1 := (floats_iff (v := ⟨l⟩)).2 h1
  rw [(floats_iff (v := ⟨l⟩)).2 h2] at e1
  simpa using e1.symm

theorem swarm_one {h h1 h2 : List SwarmDeed} {i : Input} {r1 r2 : Option Bytes} {o1 o2 : Bytes} (t1 : SwarmTold tiny nan h i h1 r1 o1)
    (t2 : SwarmTold tiny nan h i h2 r2 o2) : h1 = h2 ∧ r1 = r2 ∧ o1 = o2 := by
  have nd : [lit "particles.add", lit "particles.get", lit "particles.update", lit "particles.list", lit "pivot", lit "sum_all",
      lit "get_arg_or_pi"].Nodup := by decide +kernel
  have i1 := swarm_inv t1
  have i2 := swarm_inv t2
  clear t1 t2
  generalize lit "particles.add" = n1 at *
  generalize lit "particles.get" = n2 at *
  generalize lit "particles.update" = n3 at *
  generalize lit "particles.list" = n4 at *
  generalize lit "pivot" = n5 at *
  generalize lit "sum_all" = n6 at *
  generalize lit "get_arg_or_pi" = n7 at *
  generalize lit "3.14" = c1 at *
  generalize lit "null" = c2 at *
  generalize lit "ID\tPos\tVel\n--\t---\t---\n" = c3 at *
  simp only [List.nodup_cons, List.mem_cons, List.not_mem_nil, or_false, not_or] at nd
  rcases i1 with ⟨e, i1⟩ | ⟨e, i1⟩ | ⟨e, i1⟩ | ⟨e, i1⟩ | ⟨e, i1⟩ | ⟨e, i1⟩ | ⟨e, i1⟩ <;>
    rcases i2 with ⟨e', i2⟩ | ⟨e', i2⟩ | ⟨e', i2⟩ | ⟨e', i2⟩ | ⟨e', i2⟩ | ⟨e', i2⟩ | ⟨e', i2⟩ <;> rw [e] at e' <;>
    first
    | (exfalso; revert nd; simp [e']; done)
    | skip
  all_goals clear nd e e'
  · obtain ⟨id, vp, vv, p, v, ha, hp, hv, rfl, rfl, rfl⟩ := i1
    obtain ⟨id', vp', vv', p', v', ha', hp', hv', rfl, rfl, rfl⟩ := i2
    rw [ha] at ha'
    cases ha'
    rw [readsPoint_one hp hp', readsPoint_one hv hv']
    exact ⟨rfl, rfl, rfl⟩
  · obtain ⟨id, ha, rfl, rfl, hr⟩ := i1
    obtain ⟨id', ha', rfl, rfl, hr'⟩ := i2
    rw [ha] at ha'
    cases ha'
    refine ⟨rfl, ?_, rfl⟩
    rcases hr with ⟨m, hm, rfl⟩ | ⟨hm, rfl⟩ <;> rcases hr' with ⟨m', hm', rfl⟩ | ⟨hm', rfl⟩
    · rw [firstMote_one hm hm']
    · obtain ⟨a, b, e, e2, _⟩ := hm
      exact absurd e2 (hm' m (by rw [e]; simp))
    · obtain ⟨a, b, e, e2, _⟩ := hm'
      exact absurd e2 (hm m' (by rw [e]; simp))
    · rfl
  · obtain ⟨t, dt, ha, ht, rfl, rfl, rfl⟩ := i1
    obtain ⟨t', dt', ha', ht', rfl, rfl, rfl⟩ := i2
    rw [ha] at ha'
    cases ha'
    rw [readsFloat_one ht ht']
    exact ⟨rfl, rfl, rfl⟩
  · obtain ⟨rfl, rfl, rfl⟩ := i1
    obtain ⟨rfl, rfl, rfl⟩ := i2
    exact ⟨rfl, rfl, rfl⟩
  · obtain ⟨rfl, ⟨ha, rfl, rfl⟩ | ⟨v, p, ha, hp, rfl, rfl⟩⟩ := i1 <;> obtain ⟨rfl, ⟨ha', rfl, rfl⟩ | ⟨v', p', ha', hp', rfl, rfl⟩⟩ := i2 <;>
      rw [ha] at ha' <;> cases ha'
    · exact ⟨rfl, rfl, rfl⟩
    · rw [readsPoint_one hp hp']
      exact ⟨rfl, rfl, rfl⟩
  · obtain ⟨v, xs, ha, hx, rfl, rfl, rfl⟩ := i1
    obtain ⟨v', xs', ha', hx', rfl, rfl, rfl⟩ := i2
    rw [ha] at ha'
    cases ha'
    rw [readsFloats_one hx hx']
    exact ⟨rfl, rfl, rfl⟩
  · obtain ⟨v, ha, rfl, rfl, hr⟩ := i1
    obtain ⟨v', ha', rfl, rfl, hr'⟩ := i2
    rw [ha] at ha'
    cases ha'
    refine ⟨rfl, ?_, rfl⟩
    rcases hr with ⟨t, rest, x, rfl, ht, hx, rfl⟩ | ⟨hv, rfl⟩ <;> rcases hr' with ⟨t', rest', x', e, ht', hx', rfl⟩ | ⟨hv', rfl⟩
    · cases e
      rw [readsFloat_one hx hx']
    · exact absurd hv' (by simpa using ht)
    · subst e
      exact absurd hv (by simpa using ht')
    · rfl

/-- The first particle with a name. -/
theorem first_added {earlier later : List SwarmDeed} {id : Bytes} {p v : Point} (hfirst : ∀ p v, SwarmDeed.add id p v ∉ earlier) :
    FirstMote (swarm nan (earlier ++ .add id p v :: later)) id (moved nan id p v (stepsOf later)) := by
  induction earlier with
  | nil => exact ⟨[], _, rfl, rfl, by simp⟩
  | cons x earlier ih =>
    obtain ⟨a, b, e, e2, ha⟩ := ih (fun p v hm => hfirst p v (List.mem_cons_of_mem _ hm))
    cases x with
    | add id' p' v' =>
      refine ⟨moved nan id' p' v' (stepsOf (earlier ++ .add id p v :: later)) :: a, b, ?_, e2, ?_⟩
      · simp only [List.cons_append, swarm, e]
      · intro n hn
        rcases List.mem_cons.1 hn with rfl | hn
        · intro hid
          have : id' = id := hid
          subst this
          exact hfirst p' v' (by simp)
        · exact ha n hn
    | update dt => exact ⟨a, b, e, e2, ha⟩
    | pivot q => exact ⟨a, b, e, e2, ha⟩

end Coil
