import Verif.Proofs.Encapsulation
import Verif.Proofs.Conv

/-!
# The subsystem: the effect of a command
-/

namespace Coil
open Spec

variable {pl : Platform} {tiny : Nat → Nat → Bool} {catching : Bool} {σ : SubScene} {i : Input} {g : Stage} {d : Delims}

@[local simp] private theorem e_c : (lit "create_subsystem" = []) = False := by decide +kernel
@[local simp] private theorem n_cd : (lit "create_subsystem" = lit "destroy_subsystem") = False := by decide +kernel
@[local simp] private theorem n_ct : (lit "create_subsystem" = lit "subsystem.time") = False := by decide +kernel
@[local simp] private theorem n_cn : (lit "create_subsystem" = lit "subsystem.counter") = False := by decide +kernel
@[local simp] private theorem n_ca : (lit "create_subsystem" = lit "subsystem.data") = False := by decide +kernel
@[local simp] private theorem n_cw : (lit "create_subsystem" = lit "subsystem.do_some_work") = False := by decide +kernel
@[local simp] private theorem e_d : (lit "destroy_subsystem" = []) = False := by decide +kernel
@[local simp] private theorem n_dc : (lit "destroy_subsystem" = lit "create_subsystem") = False := by decide +kernel
@[local simp] private theorem n_dt : (lit "destroy_subsystem" = lit "subsystem.time") = False := by decide +kernel
@[local simp] private theorem n_dn : (lit "destroy_subsystem" = lit "subsystem.counter") = False := by decide +kernel
@[local simp] private theorem n_da : (lit "destroy_subsystem" = lit "subsystem.data") = False := by decide +kernel
@[local simp] private theorem n_dw : (lit "destroy_subsystem" = lit "subsystem.do_some_work") = False := by decide +kernel
@[local simp] private theorem e_t : (lit "subsystem.time" = []) = False := by decide +kernel
@[local simp] private theorem n_tc : (lit "subsystem.time" = lit "create_subsystem") = False := by decide +kernel
@[local simp] private theorem n_td : (lit "subsystem.time" = lit "destroy_subsystem") = False := by decide +kernel
@[local simp] private theorem n_tn : (lit "subsystem.time" = lit "subsystem.counter") = False := by decide +kernel
@[local simp] private theorem n_ta : (lit "subsystem.time" = lit "subsystem.data") = False := by decide +kernel
@[local simp] private theorem n_tw : (lit "subsystem.time" = lit "subsystem.do_some_work") = False := by decide +kernel
@[local simp] private theorem e_n : (lit "subsystem.counter" = []) = False := by decide +kernel
@[local simp] private theorem n_nc : (lit "subsystem.counter" = lit "create_subsystem") = False := by decide +kernel
@[local simp] private theorem n_nd : (lit "subsystem.counter" = lit "destroy_subsystem") = False := by decide +kernel
@[local simp] private theorem n_nt : (lit "subsystem.counter" = lit "subsystem.time") = False := by decide +kernel
@[local simp] private theorem n_na : (lit "subsystem.counter" = lit "subsystem.data") = False := by decide +kernel
@[local simp] private theorem n_nw : (lit "subsystem.counter" = lit "subsystem.do_some_work") = False := by decide +kernel
@[local simp] private theorem e_a : (lit "subsystem.data" = []) = False := by decide +kernel
@[local simp] private theorem n_ac : (lit "subsystem.data" = lit "create_subsystem") = False := by decide +kernel
@[local simp] private theorem n_ad : (lit "subsystem.data" = lit "destroy_subsystem") = False := by decide +kernel
@[local simp] private theorem n_at : (lit "subsystem.data" = lit "subsystem.time") = False := by decide +kernel
@[local simp] private theorem n_an : (lit "subsystem.data" = lit "subsystem.counter") = False := by decide +kernel
@[local simp] private theorem n_aw : (lit "subsystem.data" = lit "subsystem.do_some_work") = False := by decide +kernel
@[local simp] private theorem e_w : (lit "subsystem.do_some_work" = []) = False := by decide +kernel
@[local simp] private theorem n_wc : (lit "subsystem.do_some_work" = lit "create_subsystem") = False := by decide +kernel
@[local simp] private theorem n_wd : (lit "subsystem.do_some_work" = lit "destroy_subsystem") = False := by decide +kernel
@[local simp] private theorem n_wt : (lit "subsystem.do_some_work" = lit "subsystem.time") = False := by decide +kernel
@[local simp] private theorem n_wn : (lit "subsystem.do_some_work" = lit "subsystem.counter") = False := by decide +kernel
@[local simp] private theorem n_wa : (lit "subsystem.do_some_work" = lit "subsystem.data") = False := by decide +kernel

/-- A command that is refused leaves the stage. -/
theorem refused_effect {es : List Bytes} (hno : ¬ ∃ σ1 v, Accepted pl tiny g i σ1 v) (hes : es ≠ []) (h0 : i.name = [] → es = [lit "No function name is specified"])
    (h1 : i.name ≠ [] → i.name ≠ lit "create_subsystem" → i.name ≠ lit "destroy_subsystem" → (i.name ∈ subsystemNames → g.usable = false) →
      es = [lit "No function '" ++ upToNul i.name ++ lit "' is registered"]) :
    Effect pl tiny g i g (.ok ⟨i, es, none, []⟩) := ⟨_, rfl, rfl, rfl, .inr ⟨hno, rfl, rfl, hes, h0, h1⟩⟩

theorem accepted_effect {g' : Stage} {v : Option Bytes} (h : Accepted pl tiny g i g' v) : Effect pl tiny g i g' (.ok ⟨i, [], v, []⟩) :=
  ⟨_, rfl, rfl, rfl, .inl ⟨h, rfl⟩⟩

/-- A new value of a member. -/
theorem staged_put (h : Staged d σ g) {j : Nat} (hj : σ.user.current = some j) {p : Part} (hu : g.usable = true) {o : Subsystem}
    (ho : o = ⟨p.time, p.counter, p.data, subsystemNames⟩) :
    Staged d { σ with user := σ.user.put j (some o) } ⟨some p, true⟩ := by
  obtain ⟨b, hb⟩ := h.commands
  have fits := h.fits
  simp only [Fitting] at fits
  rw [hj] at fits
  obtain ⟨q, hq, hk, hrest⟩ := fits
  have hlt := (List.getElem?_eq_some_iff.1 hk).1
  refine ⟨⟨b, by rw [hu] at hb; simpa [SubWorld.put] using hb⟩, ?_, by simp, h.reads, h.changes⟩
  simp only [Fitting, SubWorld.put, hj]
  refine ⟨p, rfl, by simp [hlt, ho], fun k hk' o' ho' => ?_⟩
  rw [List.getElem?_set_ne (fun e => hk' e.symm)] at ho'
  exact hrest k hk' o' ho'

theorem int_reads {v : Value} {z : Int} : (intConv pl .int).fromString v = .ok (.ok z) ↔ ∃ t, v = ⟨[t]⟩ ∧ Numeral t z ∧ InRange pl .int z := by
  match v with
  | ⟨[]⟩ => simp [intConv, arithConv]
  | ⟨[s]⟩ =>
    have := signed_fromString_iff (pl := pl) (t := .int) (by simp [IsSignedParse]) (s := s) (z := z)
    constructor
    · intro h
      refine ⟨s, rfl, this.1 ?_⟩
      simp only [intConv, arithConv] at h
      split at h <;> simp_all
    · rintro ⟨t, e, ht⟩
      cases e
      simp [intConv, arithConv, this.2 ht]
  | ⟨_ :: _ :: _⟩ => simp [intConv, arithConv]

theorem string_reads {v : Value} {t : Bytes} : stringConv.fromString v = .ok (.ok t) ↔ v = ⟨[t]⟩ := by
  match v with
  | ⟨[]⟩ => simp [stringConv]
  | ⟨[s]⟩ => simp [stringConv]
  | ⟨_ :: _ :: _⟩ => simp [stringConv]


/-- The errors of a command whose name is known at this stage. -/
theorem known_effect {m : Bytes} (hno : ¬ ∃ σ1 v, Accepted pl tiny g i σ1 v) (hn : i.name ≠ [])
    (hk : i.name = lit "create_subsystem" ∨ i.name = lit "destroy_subsystem" ∨ i.name ∈ subsystemNames ∧ g.usable = true) :
    Effect pl tiny g i g (.ok ⟨i, [m], none, []⟩) := by
  refine refused_effect hno (by simp) (fun h => absurd h hn) fun _ h1 h2 h3 => ?_
  rcases hk with h | h | ⟨h, h'⟩
  · exact absurd h h1
  · exact absurd h h2
  · rw [h3 h] at h'; cases h'

/-- The effect of the commands of a variable. -/
theorem effect_variable {T : Type} {conv : Conv T} (hT : ∀ v, ∃ r, conv.fromString v = .ok r) {read : Subsystem → T}
    {write : T → Subsystem → Subsystem} {change : T → Part → Part} {c0 c1 : SubCode} {b j : Nat} {p : Part}
    (h0 : subFunctions pl tiny c0 = memberGetDef conv read) (h1 : subFunctions pl tiny c1 = memberSetDef conv read write)
    (h : Staged d σ g) (hg : g = ⟨some p, true⟩) (hj : σ.user.current = some j) (hn : i.name ∈ subsystemNames) (hne : i.name ≠ [])
    (hc : σ.commands i.name = some [⟨b, c0, j⟩, ⟨b + 1, c1, j⟩])
    (hw : ∀ x o, read (write x o) = x)
    (hch : ∀ x (q : Part), write x ⟨q.time, q.counter, q.data, subsystemNames⟩ =
      ⟨(change x q).time, (change x q).counter, (change x q).data, subsystemNames⟩)
    (ok0 : i.arguments = [] → Accepted pl tiny g i g (some (conv.toString (read ⟨p.time, p.counter, p.data, subsystemNames⟩))))
    (ok1 : ∀ v x, i.arguments = [v] → conv.fromString v = .ok (.ok x) → Accepted pl tiny g i ⟨some (change x p), true⟩ (some (conv.toString x)))
    (no : ∀ σ1 r, Accepted pl tiny g i σ1 r → i.arguments = [] ∨ ∃ v x, i.arguments = [v] ∧ conv.fromString v = .ok (.ok x)) :
    ∃ σ' g' out, Performs (subFunctions pl tiny) catching σ (.input i) σ' out ∧ Staged d σ' g' ∧ Effect pl tiny g i g' out := by
  have fits := h.fits
  simp only [Fitting] at fits
  rw [hj] at fits
  obtain ⟨q, hq, hk, _⟩ := fits
  have : q = p := by rw [hg] at hq; exact (Option.some.inj hq).symm
  subst this
  rcases performs_variable (catching := catching) hT h0 h1 hne hc (o := ⟨q.time, q.counter, q.data, subsystemNames⟩) (by simp [SubWorld.at, hk]) hk
    (fun x => hw x _) with ⟨ha, hp⟩ | ⟨v, x, ha, hx, hp⟩ | ⟨ha, ha', m, hp⟩
  · exact ⟨_, _, _, hp, h, accepted_effect (ok0 ha)⟩
  · exact ⟨_, _, _, hp, staged_put h hj (p := change x q) (by rw [hg]) (hch x q), accepted_effect (ok1 v x ha hx)⟩
  · refine ⟨_, _, _, hp, h, known_effect ?_ hne (.inr (.inr ⟨hn, by rw [hg]⟩))⟩
    rintro ⟨σ1, r, hr⟩
    rcases no σ1 r hr with h' | ⟨v, x, h', hx⟩
    · exact ha' h'
    · obtain ⟨m', hm'⟩ := ha v h'
      rw [hm'] at hx
      cases hx

theorem effect_none (h : Staged d σ g) (hn : i.name ≠ []) (hc : σ.commands i.name = none) (h1 : i.name ≠ lit "create_subsystem")
    (h2 : i.name ≠ lit "destroy_subsystem") (h3 : i.name ∈ subsystemNames → g.usable = false) :
    ∃ σ' g' out, Performs (subFunctions pl tiny) catching σ (.input i) σ' out ∧ Staged d σ' g' ∧ Effect pl tiny g i g' out := by
  refine ⟨_, _, _, .unknown hn hc, h, refused_effect ?_ (by simp) (fun e => absurd e hn) fun _ _ _ _ => rfl⟩
  rintro ⟨σ1, v, hv⟩
  cases hv <;> simp_all [subsystemNames]

theorem effect_work {b j : Nat} {p : Part} (h : Staged d σ g) (hg : g = ⟨some p, true⟩) (hj : σ.user.current = some j)
    (hn : i.name = lit "subsystem.do_some_work") (hc : σ.commands i.name = some [⟨b, .work, j⟩]) :
    ∃ σ' g' out, Performs (subFunctions pl tiny) catching σ (.input i) σ' out ∧ Staged d σ' g' ∧ Effect pl tiny g i g' out := by
  have fits := h.fits
  simp only [Fitting] at fits
  rw [hj] at fits
  obtain ⟨q, hq, hk, _⟩ := fits
  have : q = p := by rw [hg] at hq; exact (Option.some.inj hq).symm
  subst this
  have hne : i.name ≠ [] := by simp [hn]
  have hin : i.name ∈ subsystemNames := by simp [hn, subsystemNames]
  have known : ∀ m, (¬ ∃ σ1 v, Accepted pl tiny g i σ1 v) → Effect pl tiny g i g (.ok ⟨i, [m], none, []⟩) := fun m hm =>
    known_effect hm hne (.inr (.inr ⟨hin, by rw [hg]⟩))
  match ha : i.arguments with
  | [v1, v2] =>
    have hf : FirstOfArity (subFunctions pl tiny) i.arguments.length [⟨b, .work, j⟩] ⟨b, .work, j⟩ :=
      ⟨[], [], rfl, by simp [subFunctions, workDef, ha], by simp⟩
    obtain ⟨r1, hr1⟩ := string_total v1
    obtain ⟨r2, hr2⟩ : ∃ r, (intConv pl .int).fromString v2 = .ok r := arith_total v2
    have bad : (conversionErrors (subFunctions pl tiny .work).params i.arguments ≠ []) →
        (¬ ∃ σ1 v, Accepted pl tiny g i σ1 v) →
        ∃ σ' g' out, Performs (subFunctions pl tiny) catching σ (.input i) σ' out ∧ Staged d σ' g' ∧ Effect pl tiny g i g' out := by
      intro he hno
      refine ⟨_, _, _, .mismatch hne hc hf (by rw [ha]; exact ⟨⟨_, hr1⟩, ⟨_, hr2⟩, trivial⟩) he, h, ?_⟩
      refine refused_effect hno he (fun e => absurd e hne) fun _ h1 h2 h3 => ?_
      have := h3 hin
      rw [hg] at this
      cases this
    have hno : (∀ t z, v1 = ⟨[t]⟩ → ¬ (intConv pl .int).fromString v2 = .ok (.ok z)) → ¬ ∃ σ1 v, Accepted pl tiny g i σ1 v := by
      rintro hh ⟨σ1, v, hv⟩
      cases hv with
      | work _ ht hz =>
        simp only [List.cons.injEq, and_true] at ha
        exact hh _ _ ha.1.symm (int_reads.2 ⟨_, ha.2.symm, ht, hz⟩)
      | _ => simp at hn
    cases r1 with
    | error m =>
      refine bad (by rw [ha]; simp [subFunctions, workDef, conversionErrors, hr1]) (hno fun t z ht _ => ?_)
      rw [string_reads.2 ht] at hr1
      cases hr1
    | ok s =>
      cases r2 with
      | error m =>
        refine bad (by rw [ha]; simp [subFunctions, workDef, conversionErrors, hr1, hr2]) (hno fun t z _ hz => ?_)
        rw [hz] at hr2
        cases hr2
      | ok z =>
        refine ⟨_, _, _, performs_returned (d := workDef pl) rfl hne hc hf (xs := (s, z, ())) (by rw [ha]; exact ⟨hr1, hr2, trivial⟩)
          (.captured ⟨_, _, hc, by simp⟩ (does_on (k := fun o => .ret (o.data ++ lit ": " ++ s ++ intDec z))
            (o := ⟨q.time, q.counter, q.data, subsystemNames⟩) (by simp [SubWorld.at, hk]) .ret)), h, accepted_effect ?_⟩
        obtain ⟨t, ht, hnum, hrange⟩ := int_reads.1 hr2
        have he := string_reads.1 hr1
        obtain ⟨name, args, named⟩ := i
        simp only at hn ha
        subst hn ha ht he
        exact .work hg hnum hrange
  | [] =>
    obtain ⟨m, hp⟩ := performs_count (P := subFunctions pl tiny) (catching := catching) hne hc (by simp [subFunctions, workDef, ha])
    refine ⟨_, _, _, hp, h, known m ?_⟩
    rintro ⟨σ1, v, hv⟩
    cases hv <;> simp_all
  | [_] =>
    obtain ⟨m, hp⟩ := performs_count (P := subFunctions pl tiny) (catching := catching) hne hc (by simp [subFunctions, workDef, ha])
    refine ⟨_, _, _, hp, h, known m ?_⟩
    rintro ⟨σ1, v, hv⟩
    cases hv <;> simp_all
  | _ :: _ :: _ :: _ =>
    obtain ⟨m, hp⟩ := performs_count (P := subFunctions pl tiny) (catching := catching) hne hc (by simp [subFunctions, workDef, ha])
    refine ⟨_, _, _, hp, h, known m ?_⟩
    rintro ⟨σ1, v, hv⟩
    cases hv <;> simp_all

/-- The effect of a command that is given without its line. -/
theorem step_input (h : Staged d σ g) (i : Input) :
    ∃ σ' g' out, Performs (subFunctions pl tiny) catching σ (.input i) σ' out ∧ Staged d σ' g' ∧ Effect pl tiny g i g' out := by
  obtain ⟨b, hb⟩ := h.commands
  by_cases hn : i.name = []
  · refine ⟨_, _, _, .noName hn, h, refused_effect ?_ (by simp) (fun _ => rfl) fun e => absurd hn e⟩
    rintro ⟨σ1, v, hv⟩
    cases hv <;> simp_all
  by_cases h1 : i.name = lit "create_subsystem"
  · by_cases ha : i.arguments = []
    · obtain ⟨σ', hp, hs⟩ := step_create (pl := pl) (tiny := tiny) (catching := catching) h h1 ha
      refine ⟨_, _, _, hp, hs, accepted_effect ?_⟩
      obtain ⟨name, args, named⟩ := i
      simp only at h1 ha
      subst h1 ha
      exact .create
    · obtain ⟨m, hp⟩ := performs_count (P := subFunctions pl tiny) (catching := catching) (σ := σ) (fs := [⟨0, .create, 0⟩]) hn (by simp [hb, h1, subTable])
        (by
          have : 0 < i.arguments.length := List.length_pos_iff.2 ha
          simp only [List.mem_singleton, forall_eq, subFunctions, createDef, List.length_nil]
          omega)
      refine ⟨_, _, _, hp, h, known_effect ?_ hn (.inl h1)⟩
      rintro ⟨σ1, v, hv⟩
      cases hv <;> simp_all
  by_cases h2 : i.name = lit "destroy_subsystem"
  · by_cases ha : i.arguments = []
    · obtain ⟨σ', hp, hs⟩ := step_destroy (pl := pl) (tiny := tiny) (catching := catching) h h2 ha
      refine ⟨_, _, _, hp, hs, accepted_effect ?_⟩
      obtain ⟨name, args, named⟩ := i
      simp only at h2 ha
      subst h2 ha
      exact .destroy
    · obtain ⟨m, hp⟩ := performs_count (P := subFunctions pl tiny) (catching := catching) (σ := σ) (fs := [⟨1, .destroy, 0⟩]) hn (by simp [hb, h2, subTable])
        (by
          have : 0 < i.arguments.length := List.length_pos_iff.2 ha
          simp only [List.mem_singleton, forall_eq, subFunctions, destroyDef, List.length_nil]
          omega)
      refine ⟨_, _, _, hp, h, known_effect ?_ hn (.inr (.inl h2))⟩
      rintro ⟨σ1, v, hv⟩
      cases hv <;> simp_all
  cases hu : g.usable with
  | false => exact effect_none h hn (by simp [hb, subTable, h1, h2, hu]) h1 h2 fun _ => hu
  | true =>
    obtain ⟨p, hp⟩ := h.usable hu
    have hg : g = ⟨some p, true⟩ := by rw [← hp, ← hu]
    have fits := h.fits
    simp only [Fitting] at fits
    cases hj : σ.user.current with
    | none => rw [hj] at fits; rw [fits.1] at hu; cases hu
    | some j =>
      rw [hu, hj, Option.getD_some] at hb
      by_cases t1 : i.name = lit "subsystem.time"
      · refine effect_variable (c0 := .time) (c1 := .setTime) (b := b) (read := (·.time)) (write := fun x o => { o with time := x })
          (change := fun x p => { p with time := x }) arith_total rfl rfl h hg hj
          (by simp [t1, subsystemNames]) hn (by simp [hb, t1, subTable]) (fun _ _ => rfl) (fun _ _ => rfl) (fun ha => ?_) (fun v x ha hx => ?_)
          (fun σ1 r hr => ?_)
        · obtain ⟨name, args, named⟩ := i
          simp only at t1 ha
          subst t1 ha
          exact .time hg
        · obtain ⟨name, args, named⟩ := i
          simp only at t1 ha
          subst t1 ha
          exact .setTime hg hx
        · cases hr with
          | setTime _ hx => exact .inr ⟨_, _, rfl, hx⟩
          | _ => simp_all
      by_cases t2 : i.name = lit "subsystem.counter"
      · refine effect_variable (c0 := .counter) (c1 := .setCounter) (b := b + 2) (read := (·.counter)) (write := fun x o => { o with counter := x })
          (change := fun x p => { p with counter := x }) arith_total rfl rfl h hg hj
          (by simp [t2, subsystemNames]) hn (by simp [hb, t2, subTable]) (fun _ _ => rfl) (fun _ _ => rfl) (fun ha => ?_) (fun v x ha hx => ?_)
          (fun σ1 r hr => ?_)
        · obtain ⟨name, args, named⟩ := i
          simp only at t2 ha
          subst t2 ha
          exact .counter hg
        · obtain ⟨name, args, named⟩ := i
          obtain ⟨t, rfl, hz, hr⟩ := int_reads.1 hx
          simp only at t2 ha
          subst t2 ha
          exact .setCounter hg hz hr
        · cases hr with
          | setCounter _ hz hr => exact .inr ⟨_, _, rfl, int_reads.2 ⟨_, rfl, hz, hr⟩⟩
          | _ => simp_all
      by_cases t3 : i.name = lit "subsystem.data"
      · refine effect_variable (c0 := .data) (c1 := .setData) (b := b + 4) (read := (·.data)) (write := fun x o => { o with data := x })
          (change := fun x p => { p with data := x }) string_total rfl rfl h hg hj
          (by simp [t3, subsystemNames]) hn (by simp [hb, t3, subTable]) (fun _ _ => rfl) (fun _ _ => rfl) (fun ha => ?_) (fun v x ha hx => ?_)
          (fun σ1 r hr => ?_)
        · obtain ⟨name, args, named⟩ := i
          simp only at t3 ha
          subst t3 ha
          exact .data hg
        · obtain ⟨name, args, named⟩ := i
          have := string_reads.1 hx
          simp only at t3 ha
          subst t3 ha this
          exact .setData hg
        · cases hr with
          | setData _ => exact .inr ⟨_, _, rfl, string_reads.2 rfl⟩
          | _ => simp_all
      by_cases t4 : i.name = lit "subsystem.do_some_work"
      · exact effect_work h hg hj t4 (b := b + 6) (by simp [hb, t4, subTable])
      · exact effect_none h hn (by simp [hb, subTable, h1, h2, t1, t2, t3, t4]) h1 h2 fun hm => by simp [subsystemNames, t1, t2, t3, t4] at hm

/-- The scene after the beginning of `run`. -/
theorem staged_start {w : SubWorld} (hw : w = SubWorld.start) (d : Delims) :
    Staged d (((Scene.start d w).add (lit "create_subsystem") [(.create, 0)]).add (lit "destroy_subsystem") [(.destroy, 0)] : SubScene) Stage.empty := by
  subst hw
  refine ⟨⟨0, ?_⟩, ⟨rfl, by simp [Scene.add, Scene.start, SubWorld.start]⟩, by simp [Stage.empty], rfl, .start⟩
  funext n
  simp only [Scene.add, Scene.start, subTable, Scene.numbered, Stage.empty]
  by_cases h1 : n = lit "destroy_subsystem"
  · subst h1; simp
  by_cases h2 : n = lit "create_subsystem"
  · subst h2; simp
  simp [h1, h2]

/-- All requests. -/
theorem story_all {reqs : List Request} (hr : ∀ r ∈ reqs, Enterable d r) :
    ∀ {σ : SubScene} {g : Stage}, Staged d σ g → ∃ outs σ' g', Acts (subFunctions pl tiny) catching σ (reqs.map .exec) outs σ' ∧ Staged d σ' g' ∧
      Story d pl tiny g reqs outs g' := by
  induction reqs with
  | nil => exact fun h => ⟨[], _, _, .done, h, .nil⟩
  | cons r rest ih =>
    intro σ g h
    have hrest := fun r' hr' => hr r' (List.mem_cons_of_mem _ hr')
    cases r with
    | input i =>
      obtain ⟨σ1, g1, o, hp, hs, he⟩ := step_input (pl := pl) (tiny := tiny) (catching := catching) h i
      obtain ⟨outs, σ', g', h1, h2, h3⟩ := ih hrest hs
      exact ⟨_, σ', g', .exec hp h1, h2, .input he h3⟩
    | line t =>
      obtain ⟨hlen, hq⟩ := hr _ List.mem_cons_self
      rcases command_total (d := d) t with ⟨i, hi⟩ | ⟨m, hm⟩ | hl
      · obtain ⟨σ1, g1, o, hp, hs, he⟩ := step_input (pl := pl) (tiny := tiny) (catching := catching) h i
        obtain ⟨outs, σ', g', h1, h2, h3⟩ := ih hrest hs
        exact ⟨_, σ', g', .exec (.line (by rw [h.reads]; exact ⟨hlen, hi⟩) hp) h1, h2, .line hi he h3⟩
      · obtain ⟨outs, σ', g', h1, h2, h3⟩ := ih hrest h
        exact ⟨_, σ', g', .exec (.wrong (by rw [h.reads]; exact ⟨hlen, hm⟩)) h1, h2, .wrong hm h3⟩
      · exact absurd hl hq

theorem table_usable {b j : Nat} {on : Bool} {n : Bytes} (hn : n ∈ subsystemNames) :
    ((subTable b on j n).map (fun fs => (⟨n, fs⟩ : Command SubCode Nat))).isSome = true ↔ on = true := by
  simp only [subsystemNames, List.mem_cons, List.not_mem_nil, or_false] at hn
  cases on <;> rcases hn with rfl | rfl | rfl | rfl <;> simp [subTable]

theorem accepted_one {σ1 σ2 : Stage} {r1 r2 : Option Bytes} (h1 : Accepted pl tiny g i σ1 r1) (h2 : Accepted pl tiny g i σ2 r2) :
    σ1 = σ2 ∧ r1 = r2 := by
  have num : ∀ {t : Bytes} {z z' : Int}, Numeral t z → InRange pl .int z → Numeral t z' → InRange pl .int z' → z = z' := by
    intro t z z' a b c e
    have h1 := (int_reads (pl := pl)).2 ⟨t, rfl, a, b⟩
    rw [(int_reads (pl := pl)).2 ⟨t, rfl, c, e⟩] at h1
    cases h1
    rfl
  have part : ∀ {p q : Part}, g = ⟨some p, true⟩ → g = ⟨some q, true⟩ → p = q := by
    intro p q e1 e2
    rw [e1] at e2
    cases e2
    rfl
  generalize hi' : i = i' at h2
  cases h1 <;> cases h2 <;> first
    | (simp at hi'; done)
    | skip
  · exact ⟨rfl, rfl⟩
  · exact ⟨rfl, rfl⟩
  · rename_i e1 _ _ e2
    cases part e1 e2
    exact ⟨rfl, rfl⟩
  · rename_i e1 x1 _ _ _ _ e2 x2
    cases part e1 e2
    cases hi'
    rw [x1] at x2
    cases x2
    exact ⟨rfl, rfl⟩
  · rename_i e1 _ _ e2
    cases part e1 e2
    exact ⟨rfl, rfl⟩
  · rename_i e1 a1 b1 _ _ _ _ e2 a2 b2
    cases part e1 e2
    cases hi'
    cases num a1 b1 a2 b2
    exact ⟨rfl, rfl⟩
  · rename_i e1 _ _ e2
    cases part e1 e2
    exact ⟨rfl, rfl⟩
  · rename_i e1 _ _ _ e2
    cases part e1 e2
    cases hi'
    exact ⟨rfl, rfl⟩
  · rename_i e1 a1 b1 _ _ _ _ _ e2 a2 b2
    cases part e1 e2
    cases hi'
    cases num a1 b1 a2 b2
    exact ⟨rfl, rfl⟩

theorem effect_one {g1 g2 : Stage} {o1 o2 : ExecOut} (h1 : Effect pl tiny g i g1 o1) (h2 : Effect pl tiny g i g2 o2) : g1 = g2 := by
  obtain ⟨_, _, _, _, h1⟩ := h1
  obtain ⟨_, _, _, _, h2⟩ := h2
  rcases h1 with ⟨a1, _⟩ | ⟨n1, e1, _⟩ <;> rcases h2 with ⟨a2, _⟩ | ⟨n2, e2, _⟩
  · exact (accepted_one a1 a2).1
  · exact absurd ⟨_, _, a1⟩ n2
  · exact absurd ⟨_, _, a2⟩ n1
  · rw [e1, e2]

theorem story_one {cfg : LexCfg} (hp : Proper cfg) {reqs : List Request} {g1 g2 : Stage} {outs1 outs2 : List ExecOut}
    (h1 : Story (delims cfg) pl tiny g reqs outs1 g1) (h2 : Story (delims cfg) pl tiny g reqs outs2 g2) : g1 = g2 := by
  induction h1 generalizing outs2 g2 with
  | nil => cases h2; rfl
  | wrong hm _ ih =>
    cases h2 with
    | wrong _ h => exact ih h
    | line hi _ _ =>
      have := lexRead_accepts hp hi
      rw [lexRead_rejects hp hm] at this
      cases this
  | line hi he _ ih =>
    cases h2 with
    | wrong hm _ =>
      have := lexRead_accepts hp hi
      rw [lexRead_rejects hp hm] at this
      cases this
    | line hi' he' h =>
      have := lexRead_accepts hp hi
      rw [lexRead_accepts hp hi'] at this
      cases this
      cases effect_one he he'
      exact ih h
  | input he _ ih =>
    cases h2 with
    | input he' h =>
      cases effect_one he he'
      exact ih h

end Coil
