import Verif.Spec.PropertyProgram
import Verif.Proofs.ErrorProgram
import Verif.Proofs.Window
import Verif.Props.Sized

/-!
# The program of examples/properties: lemmas
-/

namespace Coil
open Spec Fl Floats

variable {pl : Platform} {refuse : Nat → Option Exn} {tiny : Nat → Nat → Bool} {nan : Fl → Fl → Bool} {hypot : Fl → Fl → Fl}

/-! ## Conversions -/

theorem frac_floor {m n : Nat} {e : Int} : (frac 2 m e).1 / (frac 2 m e).2 = n ↔ (n : ℚ) ≤ mag m e ∧ mag m e < n + 1 := by
  have hd : 0 < (frac 2 m e).2 := frac_pos (by norm_num)
  have hfv := frac_val (b := 2) (n := m) (e := e)
  have hdq : (0 : ℚ) < (frac 2 m e).2 := by exact_mod_cast hd
  unfold mag
  push_cast at hfv
  rw [← hfv, le_div_iff₀ hdq, div_lt_iff₀ hdq, Nat.div_eq_iff hd]
  have h1 : ((n : ℚ) * (frac 2 m e).2 ≤ (frac 2 m e).1) ↔ n * (frac 2 m e).2 ≤ (frac 2 m e).1 := by exact_mod_cast Iff.rfl
  have h2 : (((frac 2 m e).1 : ℚ) < (n + 1) * (frac 2 m e).2) ↔ (frac 2 m e).1 < (n + 1) * (frac 2 m e).2 := by exact_mod_cast Iff.rfl
  rw [h1, h2]
  have : (n + 1) * (frac 2 m e).2 = n * (frac 2 m e).2 + (frac 2 m e).2 := by ring
  omega

theorem toUnsigned_iff {x : Fl} {n : Nat} : toUnsigned 64 x = .ok n ↔ Truncates x n := by
  unfold Truncates
  cases x with
  | inf => simp [toUnsigned]
  | nan => simp [toUnsigned]
  | fin neg m e =>
    simp only [toUnsigned]
    constructor
    · intro h
      split at h
      · rename_i hc
        simp only [Res.ok.injEq] at h
        obtain ⟨h1, h2⟩ := frac_floor.1 h
        rw [h] at hc
        exact ⟨neg, m, e, rfl, h1, h2, hc⟩
      · cases h
    · rintro ⟨_, _, _, h0, h1, h2, h3⟩
      cases h0
      have := frac_floor.2 ⟨h1, h2⟩
      rw [this, if_pos h3]

theorem setAspect_iff {w w' : Window} {x : Fl} : w.setAspect nan x = .ok w' ↔ ∃ n, Truncates (aspectWidth nan w x) n ∧ w' = ⟨n, w.height⟩ := by
  unfold Window.setAspect
  constructor
  · intro h
    obtain ⟨n, h1, h2⟩ := Res.bind_eq_ok.1 h
    cases h2
    exact ⟨n, toUnsigned_iff.1 h1, rfl⟩
  · rintro ⟨n, h1, rfl⟩
    exact Res.bind_eq_ok.2 ⟨n, toUnsigned_iff.2 h1, rfl⟩

theorem setDiagonal_iff {w w' : Window} {x : Fl} : w.setDiagonal nan hypot x = .ok w' ↔
    ∃ m n, Truncates (scaledSide nan hypot w w.width x) m ∧ Truncates (scaledSide nan hypot w w.height x) n ∧ w' = ⟨m, n⟩ := by
  unfold Window.setDiagonal
  constructor
  · intro h
    obtain ⟨m, h1, h⟩ := Res.bind_eq_ok.1 h
    obtain ⟨n, h2, h3⟩ := Res.bind_eq_ok.1 h
    cases h3
    exact ⟨m, n, toUnsigned_iff.1 h1, toUnsigned_iff.1 h2, rfl⟩
  · rintro ⟨m, n, h1, h2, rfl⟩
    exact Res.bind_eq_ok.2 ⟨m, toUnsigned_iff.2 h1, Res.bind_eq_ok.2 ⟨n, toUnsigned_iff.2 h2, rfl⟩⟩

theorem resized_list (xs : List Int) (n : Nat) : Resized xs n (xs.take n ++ List.replicate (n - xs.length) 0) := by
  constructor
  · simp only [List.length_append, List.length_take, List.length_replicate]
    omega
  · intro k hk
    by_cases h : k < xs.length
    · rw [List.getElem?_append_left (by simp; omega), List.getElem?_take_of_lt hk, List.getElem?_eq_getElem h]
      rfl
    · rw [List.getElem?_append_right (by simp; omega), List.getElem?_eq_none (l := xs) (by omega), List.getElem?_replicate, if_pos (by simp; omega)]
      rfl

theorem resized_unique {xs ys zs : List Int} {n : Nat} (h1 : Resized xs n ys) (h2 : Resized xs n zs) : ys = zs := by
  refine List.ext_getElem? fun k => ?_
  by_cases h : k < n
  · rw [h1.2 k h, h2.2 k h]
  · rw [List.getElem?_eq_none (by have := h1.1; omega), List.getElem?_eq_none (by have := h2.1; omega)]

/-! ## The functions -/

theorem printLoop_quiet {W C D : Type} {k : Prog W C D Unit} (hk : Quiet k) : ∀ xs, Quiet (printLoop xs k)
  | [] => hk
  | _ :: xs => .log (printLoop_quiet hk xs)

theorem prop_quiet : AllQuiet (propFunctions pl refuse tiny nan hypot) := by
  intro c xs
  cases c with
  | printSize => exact .get fun _ => .logline .ret
  | aspect | diagonal | fixedAspect | fixedDiagonal | size => exact .get fun _ => .ret
  | setAspect | setDiagonal => exact quiet_bind (.get fun _ => quiet_bind (ofRes_quiet _) fun _ => .set .ret) fun _ => .get fun _ => .ret
  | fixAspect | fixDiagonal => exact .reportError (.get fun _ => .ret)
  | data => exact .log (.get fun _ => printLoop_quiet (.log .ret) _)
  | setSize =>
    refine quiet_bind (.get fun _ => ?_) fun _ => .get fun _ => .ret
    split
    · exact .throw
    · exact .set .ret

theorem prop_printSize : Table.functions propTable (lit "window.print_size") = some [(.printSize, ())] := by decide +kernel
theorem prop_aspect : Table.functions propTable (lit "window.aspect") = some [(.aspect, ()), (.setAspect, ())] := by decide +kernel
theorem prop_diagonal : Table.functions propTable (lit "window.diagonal") = some [(.diagonal, ()), (.setDiagonal, ())] := by decide +kernel
theorem prop_fixedAspect : Table.functions propTable (lit "window.readonly_aspect") = some [(.fixedAspect, ()), (.fixAspect, ())] := by decide +kernel
theorem prop_fixedDiagonal : Table.functions propTable (lit "window.readonly_diagonal") = some [(.fixedDiagonal, ()), (.fixDiagonal, ())] := by
  decide +kernel
theorem prop_data : Table.functions propTable (lit "data") = some [(.data, ())] := by decide +kernel
theorem prop_size : Table.functions propTable (lit "data.size") = some [(.size, ()), (.setSize, ())] := by decide +kernel

/-- The names of the functions. -/
def PropCode.name : PropCode → Bytes
  | .printSize => lit "window.print_size"
  | .aspect | .setAspect => lit "window.aspect"
  | .diagonal | .setDiagonal => lit "window.diagonal"
  | .fixedAspect | .fixAspect => lit "window.readonly_aspect"
  | .fixedDiagonal | .fixDiagonal => lit "window.readonly_diagonal"
  | .data => lit "data"
  | .size | .setSize => lit "data.size"

theorem prop_member {i : Input} {fs : List (PropCode × Unit)} {f : PropCode × Unit} (hfs : Table.functions propTable i.name = some fs)
    (hf : f ∈ fs) : i.name = f.1.name := by
  have hm := functions_mem hfs
  simp only [propTable, List.mem_cons, List.not_mem_nil, or_false, Prod.mk.injEq] at hm
  rcases hm with ⟨h1, rfl⟩ | ⟨h1, rfl⟩ | ⟨h1, rfl⟩ | ⟨h1, rfl⟩ | ⟨h1, rfl⟩ | ⟨h1, rfl⟩ | ⟨h1, rfl⟩ <;>
    simp only [List.mem_cons, List.not_mem_nil, or_false] at hf
  · subst hf; exact h1
  · rcases hf with rfl | rfl <;> exact h1
  · rcases hf with rfl | rfl <;> exact h1
  · rcases hf with rfl | rfl <;> exact h1
  · rcases hf with rfl | rfl <;> exact h1
  · subst hf; exact h1
  · rcases hf with rfl | rfl <;> exact h1

theorem printLoop_says {W C D : Type} {x : D} {l : List Named} {w : W} : ∀ (xs : List Int) (past : List CtxEvent),
    Says (C := C) x l past (printLoop xs (.log (lit "}") (.ret ()))) w ((xs.map fun x => CtxEvent.log (intDec x ++ lit " ")) ++ [.log (lit "}")])
      (.ret ()) w
  | [], _ => .log .ret
  | _ :: xs, _ => .log (printLoop_says xs _)

theorem natDec_cast (n : Nat) : intDec (n : Int) = natDec n := rfl

/-- Setting a property of the window. -/
theorem set_says {l : List Named} {h : PropWorld} {w : Window} {r : Window → Res Window} {getter : Window → Fl} (hr : r h.window = .ok w) :
    Says (C := PropCode) () l [] ((Prog.get fun v => (Prog.ofRes (r (propWindow.read v))).bind fun x => .set (propWindow.write v x) (.ret ())).bind fun _ =>
      (.get fun v => .ret (getter (propWindow.read v)) : Prog PropWorld PropCode Unit Fl)) h [] (.ret (getter w)) ⟨w, h.data⟩ := by
  refine Says.get ?_
  show Says () l [] (Prog.bind (Prog.bind (Prog.ofRes (r h.window)) _) _) h [] _ _
  rw [hr]
  exact .set (.get .ret)

/-- What a function does is told. -/
theorem prop_does (hl : pl.long64 = true) {c : PropCode} {args : List Value} {named : List Named} {xs : Args (propFunctions pl refuse tiny nan hypot c).params}
    {h : PropWorld} (hx : ConvertTo (propFunctions pl refuse tiny nan hypot c).params args xs) (ht : ¬ PropTrouble tiny nan hypot h ⟨c.name, args, named⟩) :
    ∃ es e h', Says () named [] ((propFunctions pl refuse tiny nan hypot c).body xs) h es e h' ∧
      PropTold refuse tiny nan hypot h ⟨c.name, args, named⟩ h' (outcomeOf (propFunctions pl refuse tiny nan hypot c).print es e) := by
  cases c with
  | printSize =>
    match args, hx with
    | [], _ =>
      refine ⟨[.logline _], .ret (), h, .get (.logline .ret), ?_⟩
      have := PropTold.printSize (refuse := refuse) (tiny := tiny) (nan := nan) (hypot := hypot) (h := h) (named := named)
      have h2 : outputOf [CtxEvent.logline (natDec h.window.width ++ lit "x" ++ natDec h.window.height)] =
          natDec h.window.width ++ lit "x" ++ natDec h.window.height ++ lit "\n" := by rw [outputOf_logline]; simp [outputOf]
      unfold outcomeOf
      rw [h2]
      exact this
  | aspect =>
    match args, hx with
    | [], _ => exact ⟨[], .ret _, h, .get .ret, .aspect⟩
  | diagonal =>
    match args, hx with
    | [], _ => exact ⟨[], .ret _, h, .get .ret, .diagonal⟩
  | fixedAspect =>
    match args, hx with
    | [], _ => exact ⟨[], .ret _, h, .get .ret, .fixed (.head _)⟩
  | fixedDiagonal =>
    match args, hx with
    | [], _ => exact ⟨[], .ret _, h, .get .ret, .fixed (.tail _ (.head _))⟩
  | size =>
    match args, hx with
    | [], _ => exact ⟨[], .ret _, h, .get .ret, .size⟩
  | fixAspect =>
    match args, hx with
    | [a], hx =>
      obtain ⟨t, rfl, h1⟩ := float_read hx.1
      exact ⟨[.error _], .ret _, h, .reportError (.get .ret), .fix (.head _) h1⟩
  | fixDiagonal =>
    match args, hx with
    | [a], hx =>
      obtain ⟨t, rfl, h1⟩ := float_read hx.1
      exact ⟨[.error _], .ret _, h, .reportError (.get .ret), .fix (.tail _ (.head _)) h1⟩
  | setAspect =>
    match args, hx with
    | [a], hx =>
      obtain ⟨t, rfl, h1⟩ := float_read hx.1
      have hn : ∃ n, Truncates (aspectWidth nan h.window xs.1) n := by
        by_contra hno
        exact ht ⟨t, xs.1, rfl, h1, .inl ⟨rfl, hno⟩⟩
      obtain ⟨n, hn⟩ := hn
      exact ⟨[], .ret _, _, set_says (r := fun w => w.setAspect nan xs.1) (setAspect_iff.2 ⟨n, hn, rfl⟩), .setAspect h1 hn rfl⟩
  | setDiagonal =>
    match args, hx with
    | [a], hx =>
      obtain ⟨t, rfl, h1⟩ := float_read hx.1
      have hm : ∃ n, Truncates (scaledSide nan hypot h.window h.window.width xs.1) n := by
        by_contra hno
        exact ht ⟨t, xs.1, rfl, h1, .inr ⟨rfl, .inl hno⟩⟩
      have hn : ∃ n, Truncates (scaledSide nan hypot h.window h.window.height xs.1) n := by
        by_contra hno
        exact ht ⟨t, xs.1, rfl, h1, .inr ⟨rfl, .inr hno⟩⟩
      obtain ⟨m, hm⟩ := hm
      obtain ⟨n, hn⟩ := hn
      exact ⟨[], .ret _, _, set_says (r := fun w => w.setDiagonal nan hypot xs.1) (setDiagonal_iff.2 ⟨m, n, hm, hn, rfl⟩), .setDiagonal h1 hm hn rfl⟩
  | data =>
    match args, hx with
    | [], _ =>
      refine ⟨_, .ret (), h, .log (.get (printLoop_says _ _)), ?_⟩
      have he : (CtxEvent.log (lit "{ ") :: ((h.data.map fun x => CtxEvent.log (intDec x ++ lit " ")) ++ [CtxEvent.log (lit "}")])) =
          (lit "{ " :: h.data.map fun x => intDec x ++ lit " ").map CtxEvent.log ++ [CtxEvent.log (lit "}")] := by
        simp [Function.comp_def]
      show PropTold refuse tiny nan hypot h _ h (outcomeOf none (CtxEvent.log (lit "{ ") :: (_ ++ _)) (.ret ()))
      have hb : propData.read h = h.data := rfl
      rw [hb, he]
      have h1 := errorsOf_logs (lit "{ " :: h.data.map fun x => intDec x ++ lit " ") [CtxEvent.log (lit "}")]
      have h2 := outputOf_logs (lit "{ " :: h.data.map fun x => intDec x ++ lit " ") [CtxEvent.log (lit "}")]
      have h3 : errorsOf [CtxEvent.log (lit "}")] = [] := rfl
      have h4 : outputOf [CtxEvent.log (lit "}")] = lit "}" := rfl
      have := PropTold.data (refuse := refuse) (tiny := tiny) (nan := nan) (hypot := hypot) (h := h) (named := named)
      unfold outcomeOf
      simp only [h1, h2, h3, h4]
      exact this
  | setSize =>
    match args, hx with
    | [a], hx =>
      obtain ⟨t, rfl, h1⟩ := (size_reads (.inr ⟨rfl, hl⟩)).1 hx.1
      obtain ⟨k, ⟨⟩⟩ := xs
      dsimp only at h1
      have hk : 0 ≤ k := by
        obtain ⟨_, neg, mag, _, _, h3⟩ := h1
        rw [h3]
        cases neg
        · exact Int.natCast_nonneg _
        · exact Int.natCast_nonneg _
      obtain ⟨n, rfl⟩ := Int.eq_ofNat_of_zero_le hk
      cases hr : (if n ≤ h.data.length then none else refuse n) with
      | some e =>
        refine ⟨[], .exn e, h, ?_, .refused (n := n) h1 ?_ ?_⟩
        · refine Says.get ?_
          show Says () named [] (Prog.bind (match if n ≤ h.data.length then none else refuse n with
            | some e => .throw e
            | none => _) _) h [] (.exn e) h
          rw [hr]
          exact .throw
        · split at hr
          · cases hr
          · omega
        · split at hr
          · cases hr
          · exact hr
      | none =>
        have hres := resized_list h.data n
        refine ⟨[], .ret (n : Int), ⟨h.window, h.data.take n ++ List.replicate (n - h.data.length) 0⟩, ?_, .setSize (n := n) h1 ?_ hres⟩
        · refine Says.get ?_
          show Says () named [] (Prog.bind (match if n ≤ h.data.length then none else refuse n with
            | some e => .throw e
            | none => Prog.set (propData.write h (h.data.take n ++ List.replicate (n - h.data.length) 0)) (.ret ())) _) h [] _ _
          rw [hr]
          refine .set (.get ?_)
          have : ((propData.read (propData.write h (h.data.take n ++ List.replicate (n - h.data.length) 0))).length : Int) = n :=
            congrArg Nat.cast hres.1
          rw [this]
          exact .ret
        · split at hr
          · left; assumption
          · exact .inr hr

theorem prop_calm {c : PropCode} {args : List Value} {named : List Named} {xs : Args (propFunctions pl refuse tiny nan hypot c).params}
    {es : List CtxEvent} {e : End (propFunctions pl refuse tiny nan hypot c).R} {h h' : PropWorld}
    (hx : ConvertTo (propFunctions pl refuse tiny nan hypot c).params args xs)
    (hs : Says () named [] ((propFunctions pl refuse tiny nan hypot c).body xs) h es e h') : ¬ PropTrouble tiny nan hypot h ⟨c.name, args, named⟩ := by
  rintro ⟨t, x, ha, h1, h2⟩
  dsimp only at ha h2
  subst ha
  have one : ∀ y : Fl, (singleConv tiny).fromString ⟨[t]⟩ = .ok (.ok y) → y = x := by
    intro y hy
    have := hy.symm.trans h1
    simpa using this
  rcases h2 with ⟨hn, hno⟩ | ⟨hn, hno⟩
  · have hc : c = .setAspect := by
      cases c with
      | setAspect => rfl
      | aspect => cases hx
      | _ => exact absurd hn (by decide +kernel)
    subst hc
    cases one _ hx.1
    cases hr : h.window.setAspect nan xs.1 with
    | ok w =>
      obtain ⟨n, h3, _⟩ := setAspect_iff.1 hr
      exact hno ⟨n, h3⟩
    | ub u =>
      have hs := says_get hs
      change Says () named [] (Prog.bind (Prog.bind (Prog.ofRes (h.window.setAspect nan xs.1)) _) _) h es e h' at hs
      rw [hr] at hs
      cases hs
    | diverge =>
      have hs := says_get hs
      change Says () named [] (Prog.bind (Prog.bind (Prog.ofRes (h.window.setAspect nan xs.1)) _) _) h es e h' at hs
      rw [hr] at hs
      cases hs
  · have hc : c = .setDiagonal := by
      cases c with
      | setDiagonal => rfl
      | diagonal => cases hx
      | _ => exact absurd hn (by decide +kernel)
    subst hc
    cases one _ hx.1
    cases hr : h.window.setDiagonal nan hypot xs.1 with
    | ok w =>
      obtain ⟨m, n, h3, h4, _⟩ := setDiagonal_iff.1 hr
      rcases hno with hno | hno
      · exact hno ⟨m, h3⟩
      · exact hno ⟨n, h4⟩
    | ub u =>
      have hs := says_get hs
      change Says () named [] (Prog.bind (Prog.bind (Prog.ofRes (h.window.setDiagonal nan hypot xs.1)) _) _) h es e h' at hs
      rw [hr] at hs
      cases hs
    | diverge =>
      have hs := says_get hs
      change Says () named [] (Prog.bind (Prog.bind (Prog.ofRes (h.window.setDiagonal nan hypot xs.1)) _) _) h es e h' at hs
      rw [hr] at hs
      cases hs

theorem size_errors (hl : pl.long64 = true) {t : Bytes} {k : Int} (h : IndexText t k) : conversionErrors [⟨Int, intConv pl .ulong⟩] [⟨[t]⟩] = [] := by
  have := (size_reads (pl := pl) (sz := .ulong) (.inr ⟨rfl, hl⟩)).2 ⟨t, rfl, h⟩
  simp only [conversionErrors, this]

/-- The first function of two. -/
theorem firstTaking_first {W C D : Type} {P : C → FunctorDef W C D} {n : Nat} {f g : C × D} (h : (P f.1).params.length = n) :
    FirstTaking P n [f, g] f := ⟨[], [g], rfl, h, by simp⟩

/-- The second function of two. -/
theorem firstTaking_second {W C D : Type} {P : C → FunctorDef W C D} {n : Nat} {f g : C × D} (h : (P g.1).params.length = n)
    (h' : (P f.1).params.length ≠ n) : FirstTaking P n [f, g] g := ⟨[f], [], rfl, h, by simpa using h'⟩

theorem prop_accounts (hl : pl.long64 = true) :
    Accounts (propFunctions pl refuse tiny nan hypot) propTable (PropTold refuse tiny nan hypot) (fun w h => w = h) where
  known := by
    intro h h' i o t
    cases t with
    | printSize => exact ⟨by dsimp only; decide +kernel, _, _, prop_printSize, firstTaking_single rfl, rfl⟩
    | aspect => exact ⟨by dsimp only; decide +kernel, _, _, prop_aspect, firstTaking_first rfl, rfl⟩
    | diagonal => exact ⟨by dsimp only; decide +kernel, _, _, prop_diagonal, firstTaking_first rfl, rfl⟩
    | setAspect hx => exact ⟨by dsimp only; decide +kernel, _, _, prop_aspect, firstTaking_second rfl Nat.zero_ne_one, reads_errors hx⟩
    | setDiagonal hx => exact ⟨by dsimp only; decide +kernel, _, _, prop_diagonal, firstTaking_second rfl Nat.zero_ne_one, reads_errors hx⟩
    | fixed hn =>
      simp only [fixedNames, List.mem_cons, List.not_mem_nil, or_false, Prod.mk.injEq] at hn
      rcases hn with ⟨rfl, _⟩ | ⟨rfl, _⟩
      · exact ⟨by dsimp only; decide +kernel, _, _, prop_fixedAspect, firstTaking_first rfl, rfl⟩
      · exact ⟨by dsimp only; decide +kernel, _, _, prop_fixedDiagonal, firstTaking_first rfl, rfl⟩
    | fix hn hx =>
      simp only [fixedNames, List.mem_cons, List.not_mem_nil, or_false, Prod.mk.injEq] at hn
      rcases hn with ⟨rfl, _⟩ | ⟨rfl, _⟩
      · exact ⟨by dsimp only; decide +kernel, _, _, prop_fixedAspect, firstTaking_second rfl Nat.zero_ne_one, reads_errors hx⟩
      · exact ⟨by dsimp only; decide +kernel, _, _, prop_fixedDiagonal, firstTaking_second rfl Nat.zero_ne_one, reads_errors hx⟩
    | data => exact ⟨by dsimp only; decide +kernel, _, _, prop_data, firstTaking_single rfl, rfl⟩
    | size => exact ⟨by dsimp only; decide +kernel, _, _, prop_size, firstTaking_first rfl, rfl⟩
    | setSize hx | refused hx => exact ⟨by dsimp only; decide +kernel, _, _, prop_size, firstTaking_second rfl Nat.zero_ne_one, size_errors hl hx⟩
  does := by
    rintro w w' _ ⟨nm, args, named⟩ fs ⟨c, ⟨⟩⟩ xs es e rfl hfs hf hx hs
    have hm := prop_member hfs (firstTaking_member hf)
    dsimp only at hm
    subst hm
    obtain ⟨es', e', h', g1, g2⟩ := prop_does hl (named := named) hx (prop_calm hx hs)
    obtain ⟨rfl, rfl, rfl⟩ := says_unique g1 hs
    exact ⟨w', rfl, g2⟩

theorem prop_answerable (hl : pl.long64 = true) (h : PropWorld) (i : Input) :
    Answerable (propFunctions pl refuse tiny nan hypot) propTable (fun v => v = h) i ↔ ¬ PropTrouble tiny nan hypot h i := by
  constructor
  · intro ha ht
    have ht' := ht
    obtain ⟨t, x, h1, h2, h3⟩ := ht'
    obtain ⟨nm, args, named⟩ := i
    dsimp only at h1 h3
    subst h1
    have hx : ConvertTo [⟨Fl, singleConv tiny⟩] [⟨[t]⟩] (x, ()) := ⟨h2, trivial⟩
    rcases h3 with ⟨rfl, _⟩ | ⟨rfl, _⟩
    · obtain ⟨_, h4⟩ := ha _ (.setAspect, ()) (by dsimp only; decide +kernel) prop_aspect (firstTaking_second rfl Nat.zero_ne_one)
      obtain ⟨es, e, w, hs⟩ := h4 _ hx h rfl
      exact prop_calm (c := .setAspect) hx hs ht
    · obtain ⟨_, h4⟩ := ha _ (.setDiagonal, ()) (by dsimp only; decide +kernel) prop_diagonal (firstTaking_second rfl Nat.zero_ne_one)
      obtain ⟨es, e, w, hs⟩ := h4 _ hx h rfl
      exact prop_calm (c := .setDiagonal) hx hs ht
  · rintro hn fs ⟨c, ⟨⟩⟩ _ hfs hf
    have hlen := firstTaking_length hf
    have hm := prop_member hfs (firstTaking_member hf)
    obtain ⟨nm, args, named⟩ := i
    dsimp only at hlen hm ⊢
    subst hm
    refine ⟨?_, ?_⟩
    · cases c with
      | printSize | aspect | diagonal | fixedAspect | fixedDiagonal | data | size =>
        match args, hlen with
        | [], _ => exact trivial
      | setAspect | setDiagonal | fixAspect | fixDiagonal =>
        match args, hlen with
        | [a], _ => exact ⟨single_defined a, trivial⟩
      | setSize =>
        match args, hlen with
        | [a], _ => exact ⟨int_converts a, trivial⟩
    · rintro xs hx w rfl
      obtain ⟨es, e, h', g, _⟩ := prop_does hl (named := named) hx hn
      exact ⟨es, e, h', g⟩

end Coil
