import Verif.Spec.Semantics
import Verif.Proofs.IndependentMaps
import Verif.Proofs.Fuel

/-! # The model and the semantics -/

namespace Coil
open Spec

variable {W C D : Type} {P : C → FunctorDef W C D} {catching : Bool}

/-! ## Scenes -/

theorem allocate_numbered (n : Nat) (fs : List (C × D)) : allocate n fs = Scene.numbered n fs := by
  induction fs generalizing n with
  | nil => rfl
  | cons f fs ih =>
    obtain ⟨c, d⟩ := f
    simp only [allocate, ih, Scene.numbered, List.zipIdx_cons, List.map_cons]

theorem numbered_ids (n : Nat) (fs : List (C × D)) : (Scene.numbered n fs).map Inst.id = List.range' n fs.length := by
  rw [← allocate_numbered, allocate_ids]

theorem numbered_mem {n : Nat} {fs : List (C × D)} {f : Inst C D} (h : f ∈ Scene.numbered n fs) : n ≤ f.id ∧ f.id < n + fs.length := by
  have : f.id ∈ (Scene.numbered n fs).map Inst.id := List.mem_map_of_mem h
  rw [numbered_ids, List.mem_range'_1] at this
  exact this

theorem numbered_inj {n : Nat} {fs : List (C × D)} {f g : Inst C D} (hf : f ∈ Scene.numbered n fs) (hg : g ∈ Scene.numbered n fs)
    (h : f.id = g.id) : f = g := by
  have nd : ((Scene.numbered n fs).map Inst.id).Nodup := by rw [numbered_ids]; exact List.nodup_range'
  generalize Scene.numbered n fs = l at *
  induction l with
  | nil => cases hf
  | cons a l ih =>
    simp only [List.map_cons, List.nodup_cons] at nd
    rcases List.mem_cons.1 hf with e1 | h1 <;> rcases List.mem_cons.1 hg with e2 | h2
    · rw [e1, e2]
    · exact absurd (e1 ▸ h ▸ List.mem_map_of_mem h2) nd.1
    · exact absurd (e2 ▸ h ▸ List.mem_map_of_mem h1) nd.1
    · exact ih h1 h2 nd.2

/-- The state of the model, with a list of commands, is this scene. -/
structure Pic (s : Sys (Book C D) W C D) (σ : Scene W C D) : Prop where
  book : BookAfter s.history s.reg
  commands : ∀ n, standing s.history n = (σ.commands n).map (fun fs => ⟨n, fs⟩)
  user : s.user = σ.user
  made : s.next = σ.made
  reads : ∀ t r, σ.reads t r ↔ ReadsWith s.lexer t r
  changes : s.history = σ.changes
  bound : ∀ f, σ.Has f → f.id < σ.made
  only : ∀ n fs m gs f g, σ.commands n = some fs → f ∈ fs → σ.commands m = some gs → g ∈ gs → f.id = g.id → n = m ∧ f = g
  freed : ∀ id, id ∈ s.freed ↔ id < σ.made ∧ ∀ f, σ.Has f → f.id ≠ id

/-- Function objects are only made anew and lost. -/
structure Later (σ σ' : Scene W C D) : Prop where
  made : σ.made ≤ σ'.made
  old : ∀ f, σ'.Has f → f.id < σ.made → σ.Has f

theorem Later.refl (σ : Scene W C D) : Later σ σ := ⟨Nat.le_refl _, fun _ h _ => h⟩

theorem Later.trans {a b c : Scene W C D} (h : Later a b) (h' : Later b c) : Later a c :=
  ⟨Nat.le_trans h.made h'.made, fun f hf hl => h.old f (h'.old f hf (Nat.lt_of_lt_of_le hl h.made)) hl⟩

/-- A function object that was made, whether or not it still belongs to a command. -/
def Known (σ : Scene W C D) (f : Inst C D) : Prop := f.id < σ.made ∧ ∀ g, σ.Has g → g.id = f.id → g = f

theorem Known.later {σ σ' : Scene W C D} {f : Inst C D} (h : Known σ f) (l : Later σ σ') : Known σ' f :=
  ⟨Nat.lt_of_lt_of_le h.1 l.made, fun g hg he => h.2 g (l.old g hg (by rw [he]; exact h.1)) he⟩

theorem Pic.known {s : Sys (Book C D) W C D} {σ : Scene W C D} (p : Pic s σ) {f : Inst C D} (h : σ.Has f) : Known σ f := by
  refine ⟨p.bound f h, fun g hg he => ?_⟩
  obtain ⟨n, fs, h1, h2⟩ := h
  obtain ⟨m, gs, h3, h4⟩ := hg
  exact (p.only m gs n fs g f h3 h4 h1 h2 he).2

theorem Pic.alive {s : Sys (Book C D) W C D} {σ : Scene W C D} (p : Pic s σ) {f : Inst C D} (k : Known σ f) :
    f.id ∉ s.freed ↔ σ.Has f := by
  rw [p.freed]
  constructor
  · intro h
    by_cases hh : σ.Has f
    · exact hh
    · exact absurd ⟨k.1, fun g hg he => hh (k.2 g hg he ▸ hg)⟩ h
  · intro h hn
    exact hn.2 f h rfl

theorem Pic.find {s : Sys (Book C D) W C D} {σ : Scene W C D} (p : Pic s σ) (n : Bytes) :
    bookOps.find s.reg n = .ok ((σ.commands n).map (fun fs => ⟨n, fs⟩)) := by
  rw [← p.commands n]
  simp only [bookOps, Book.get_iff p.book n]

/-- The objects of a scene where one command is changed. -/
theorem has_change {σ : Scene W C D} {n : Bytes} {o : Option (List (Inst C D))} {σ1 : Scene W C D}
    (hc : σ1.commands = fun m => if m = n then o else σ.commands m) (f : Inst C D) :
    σ1.Has f ↔ (∃ fs, o = some fs ∧ f ∈ fs) ∨ ∃ m fs, m ≠ n ∧ σ.commands m = some fs ∧ f ∈ fs := by
  simp only [Scene.Has, hc]
  constructor
  · rintro ⟨m, fs, h1, h2⟩
    split at h1
    · exact .inl ⟨fs, h1, h2⟩
    · rename_i hm
      exact .inr ⟨m, fs, hm, h1, h2⟩
  · rintro (⟨fs, h1, h2⟩ | ⟨m, fs, h0, h1, h2⟩)
    · exact ⟨n, fs, by simp [h1], h2⟩
    · exact ⟨m, fs, by simp [h0, h1], h2⟩

/-- One command is changed: it gets new function objects, or none. -/
theorem Pic.change {s s1 : Sys (Book C D) W C D} {σ σ1 : Scene W C D} (p : Pic s σ) {n : Bytes} {o : Option (List (Inst C D))}
    (hc : σ1.commands = fun m => if m = n then o else σ.commands m) (hm : σ.made ≤ σ1.made)
    (hnew : ∀ id, (∃ fs f, o = some fs ∧ f ∈ fs ∧ f.id = id) ↔ σ.made ≤ id ∧ id < σ1.made)
    (hinj : ∀ fs f g, o = some fs → f ∈ fs → g ∈ fs → f.id = g.id → f = g)
    (hbook : BookAfter s1.history s1.reg)
    (hcom : ∀ m, standing s1.history m = if m = n then o.map (fun fs => ⟨n, fs⟩) else standing s.history m)
    (hu : s1.user = σ1.user) (hnx : s1.next = σ1.made) (hr : ∀ t r, σ1.reads t r ↔ ReadsWith s1.lexer t r) (hch : s1.history = σ1.changes)
    (hfr : s1.freed = s.freed ++ idsOf (standing s.history n)) : Pic s1 σ1 ∧ Later σ σ1 := by
  have hold : ∀ id, id ∈ idsOf (standing s.history n) ↔ ∃ fs f, σ.commands n = some fs ∧ f ∈ fs ∧ f.id = id := by
    intro id
    rw [p.commands n]
    cases σ.commands n with
    | none => simp [idsOf]
    | some fs => simp [idsOf, Command.ids]
  have hb : ∀ f, σ1.Has f → f.id < σ1.made := by
    intro f hf
    rcases (has_change hc f).1 hf with ⟨fs, h1, h2⟩ | ⟨m, fs, h0, h1, h2⟩
    · exact ((hnew f.id).1 ⟨fs, f, h1, h2, rfl⟩).2
    · exact Nat.lt_of_lt_of_le (p.bound f ⟨m, fs, h1, h2⟩) hm
  refine ⟨⟨hbook, fun m => ?_, hu, hnx, hr, hch, hb, ?_, fun id => ?_⟩, hm, fun f hf hl => ?_⟩
  · rw [hcom m, hc]
    dsimp only
    split
    · rename_i e; rw [e]
    · exact p.commands m
  · intro a fs b gs f g h1 h2 h3 h4 he
    rw [hc] at h1 h3
    dsimp only at h1 h3
    have new : ∀ {fs} {f : Inst C D}, o = some fs → f ∈ fs → σ.made ≤ f.id :=
      fun {fs f} h1 h2 => ((hnew f.id).1 ⟨fs, f, h1, h2, rfl⟩).1
    split at h1 <;> split at h3 <;> rename_i e1 e2
    · refine ⟨e1.trans e2.symm, hinj fs f g h1 h2 ?_ he⟩
      rw [h1] at h3; cases h3; exact h4
    · have := new h1 h2
      have := p.bound g ⟨b, gs, h3, h4⟩
      omega
    · have := new h3 h4
      have := p.bound f ⟨a, fs, h1, h2⟩
      omega
    · exact p.only a fs b gs f g h1 h2 h3 h4 he
  · rw [hfr, List.mem_append, p.freed, hold]
    constructor
    · rintro (⟨h1, h2⟩ | ⟨fs, f, h1, h2, rfl⟩)
      · refine ⟨Nat.lt_of_lt_of_le h1 hm, fun g hg he => ?_⟩
        rcases (has_change hc g).1 hg with ⟨gs, h3, h4⟩ | ⟨m, gs, h0, h3, h4⟩
        · have := ((hnew g.id).1 ⟨gs, g, h3, h4, rfl⟩).1
          omega
        · exact h2 g ⟨m, gs, h3, h4⟩ he
      · have hl := p.bound f ⟨n, fs, h1, h2⟩
        refine ⟨Nat.lt_of_lt_of_le hl hm, fun g hg he => ?_⟩
        rcases (has_change hc g).1 hg with ⟨gs, h3, h4⟩ | ⟨m, gs, h0, h3, h4⟩
        · have := ((hnew g.id).1 ⟨gs, g, h3, h4, rfl⟩).1
          omega
        · exact h0 (p.only m gs n fs g f h3 h4 h1 h2 he).1
    · rintro ⟨h1, h2⟩
      have hlt : id < σ.made := by
        refine Nat.lt_of_not_le (fun hle => ?_)
        obtain ⟨fs, f, h3, h4, h5⟩ := (hnew id).2 ⟨hle, h1⟩
        exact h2 f ((has_change hc f).2 (.inl ⟨fs, h3, h4⟩)) h5
      by_cases hh : ∃ fs f, σ.commands n = some fs ∧ f ∈ fs ∧ f.id = id
      · exact .inr hh
      · refine .inl ⟨hlt, fun f hf he => ?_⟩
        obtain ⟨m, fs, h3, h4⟩ := hf
        by_cases hmn : m = n
        · exact hh ⟨fs, f, hmn ▸ h3, h4, he⟩
        · exact h2 f ((has_change hc f).2 (.inr ⟨m, fs, hmn, h3, h4⟩)) he
  · rcases (has_change hc f).1 hf with ⟨fs, h1, h2⟩ | ⟨m, fs, h0, h1, h2⟩
    · have := ((hnew f.id).1 ⟨fs, f, h1, h2, rfl⟩).1
      omega
    · exact ⟨m, fs, h1, h2⟩

theorem Pic.add {s : Sys (Book C D) W C D} {σ : Scene W C D} (p : Pic s σ) (n : Bytes) (fs : List (C × D)) :
    ∃ s1, bindingsAdd bookOps s n fs = .ok s1 ∧ Pic s1 (σ.add n fs) ∧ Later σ (σ.add n fs) := by
  have bi := book_implements (C := C) (D := D) (fun _ => True)
  obtain ⟨r, e, hb⟩ := bi.put n (allocate s.next fs) p.book trivial
  refine ⟨{ s with reg := r, next := s.next + fs.length, freed := s.freed ++ idsOf (standing s.history n),
                   history := s.history ++ [.added n (allocate s.next fs)] },
    by simp only [bindingsAdd, bi.find p.book trivial, e, Res.bind_ok], ?_⟩
  refine p.change (n := n) (o := some (Scene.numbered σ.made fs)) rfl (Nat.le_add_right _ _) ?_ ?_ hb ?_ p.user
    (by simp only [Scene.add, p.made]) p.reads (by simp only [Scene.add, p.changes, p.made, allocate_numbered]) rfl
  · intro id
    constructor
    · rintro ⟨gs, f, h1, h2, rfl⟩
      cases h1
      exact numbered_mem h2
    · rintro h
      have : id ∈ (Scene.numbered σ.made fs).map Inst.id := by
        rw [numbered_ids, List.mem_range'_1]; exact h
      obtain ⟨f, h1, h2⟩ := List.mem_map.1 this
      exact ⟨_, f, rfl, h1, h2⟩
  · intro gs f g h1 h2 h3 h4
    cases h1
    exact numbered_inj h2 h3 h4
  · intro m
    rw [standing_snoc]
    simp only [asDictOp, dictStep, p.made, allocate_numbered, Option.map_some]

theorem Pic.remove {s : Sys (Book C D) W C D} {σ : Scene W C D} (p : Pic s σ) (n : Bytes) :
    ∃ s1, bindingsRemove bookOps s n = .ok s1 ∧ Pic s1 (σ.remove n) ∧ Later σ (σ.remove n) := by
  have bi := book_implements (C := C) (D := D) (fun _ => True)
  obtain ⟨r, e, hb⟩ := bi.erase n p.book trivial
  refine ⟨{ s with reg := r, freed := s.freed ++ idsOf (standing s.history n), history := s.history ++ [.removed n] },
    by simp only [bindingsRemove, bi.find p.book trivial, e, Res.bind_ok], ?_⟩
  refine p.change (n := n) (o := none) rfl (Nat.le_refl _) ?_ ?_ hb ?_ p.user p.made p.reads (by simp only [Scene.remove, p.changes]) rfl
  · intro id
    constructor
    · rintro ⟨gs, f, h1, _⟩; cases h1
    · rintro ⟨h1, h2⟩
      simp only [Scene.remove] at h2
      omega
  · intro gs f g h1; cases h1
  · intro m
    rw [standing_snoc]
    simp only [asDictOp, dictStep, Option.map_none]

theorem Pic.clear {s : Sys (Book C D) W C D} {σ : Scene W C D} (p : Pic s σ) :
    Pic (bindingsClear bookOps s) σ.clear ∧ Later σ σ.clear := by
  have bi := book_implements (C := C) (D := D) (fun _ => True)
  have none_has : ∀ f, ¬ σ.clear.Has f := by
    rintro f ⟨n, fs, h, _⟩
    cases h
  refine ⟨⟨bi.clear p.book trivial, fun n => ?_, p.user, p.made, p.reads, by simp only [bindingsClear, Scene.clear, p.changes],
    fun f h => absurd h (none_has f), fun n fs m gs f g h1 => (by cases h1), fun id => ?_⟩, Nat.le_refl _, fun f h _ => absurd h (none_has f)⟩
  · simp only [bindingsClear]
    rw [standing_snoc]
    simp [asDictOp, dictStep, Scene.clear]
  · simp only [bindingsClear, List.mem_append, p.freed, bi.all p.book trivial id]
    constructor
    · rintro (⟨h1, h2⟩ | ⟨n, c, h1, h2⟩)
      · exact ⟨h1, fun f h => absurd h (none_has f)⟩
      · rw [p.commands n] at h1
        cases hn : σ.commands n with
        | none => rw [hn] at h1; cases h1
        | some fs =>
          rw [hn] at h1
          cases h1
          obtain ⟨f, h3, rfl⟩ := List.mem_map.1 h2
          exact ⟨p.bound f ⟨n, fs, hn, h3⟩, fun f h => absurd h (none_has f)⟩
    · rintro ⟨h1, _⟩
      by_cases hh : ∃ f, σ.Has f ∧ f.id = id
      · obtain ⟨f, ⟨n, fs, h2, h3⟩, rfl⟩ := hh
        exact .inr ⟨n, ⟨n, fs⟩, by rw [p.commands n, h2]; rfl, List.mem_map_of_mem h3⟩
      · exact .inl ⟨h1, fun f hf he => hh ⟨f, hf, he⟩⟩

theorem Pic.withUser {s : Sys (Book C D) W C D} {σ : Scene W C D} (p : Pic s σ) (w : W) :
    Pic { s with user := w } { σ with user := w } :=
  ⟨p.book, p.commands, rfl, p.made, p.reads, p.changes, p.bound, p.only, p.freed⟩

theorem Pic.withCalls {s : Sys (Book C D) W C D} {σ : Scene W C D} (p : Pic s σ) (l : List (Nat × Nat)) : Pic { s with calls := l } σ :=
  ⟨p.book, p.commands, p.user, p.made, p.reads, p.changes, p.bound, p.only, p.freed⟩

theorem Pic.withLexer {s : Sys (Book C D) W C D} {σ : Scene W C D} (p : Pic s σ) (l : Option Lexer) :
    Pic (setLexer s l) { σ with reads := ReadsWith l } :=
  ⟨p.book, p.commands, p.user, p.made, fun _ _ => Iff.rfl, p.changes, p.bound, p.only, p.freed⟩

/-! ## From the model to the semantics -/

theorem takeWhile_nulFree (t : Bytes) : NulFree (upToNul t) := by
  induction t with
  | nil => simp [NulFree, upToNul]
  | cons c t ih =>
    simp only [NulFree, upToNul, List.takeWhile_cons] at ih ⊢
    split
    · rename_i h
      simp only [List.mem_cons, not_or]
      exact ⟨fun e => by simp [← e] at h, ih⟩
    · simp

theorem countError_upToNul (name : Bytes) (fs : List (Inst C D)) (n : Nat) :
    countError P name fs n = lit "Wrong number of arguments to '" ++ upToNul name ++ lit "': expected " ++
      countsInWords (fs.map (fun g => (P g.code).params.length)) ++ lit ", got " ++ natDec n := by
  refine countError_cut fs (pre := upToNul name) ?_ ?_ n
  · intro h
    exact takeWhile_nulFree name h
  · have e : name = upToNul name ++ name.dropWhile (· ≠ 0) := (List.takeWhile_append_dropWhile ..).symm
    cases hd : name.dropWhile (· ≠ 0) with
    | nil => rw [hd, List.append_nil] at e; exact .inl e
    | cons c rest =>
      have := List.head?_dropWhile_not (fun x : Byte => decide (x ≠ 0)) name
      rw [hd] at this
      simp at this
      subst this
      exact .inr ⟨rest, by rw [← hd]; exact e⟩

theorem caughtText_upToNul (x : Exn) : caughtText x = exceptionError x := by
  cases x <;> rfl

/-- What the nested `execute` functions do has a meaning. -/
def NeSound (P : C → FunctorDef W C D) (catching : Bool) (ne : Nested (Book C D) W C D) : Prop :=
  ∀ req s s' out σ, Pic s σ → ne.exec s req = .ok (s', out) → ∃ σ', Performs P catching σ req σ' out ∧ Pic s' σ' ∧ Later σ σ'

theorem runs_sound {ne : Nested (Book C D) W C D} (hne : NeSound P catching ne) {self : Inst C D} {l : List Named} {R : Type}
    {past : List CtxEvent} {p : Prog W C D R} {s s' : Sys (Book C D) W C D} {es : List CtxEvent} {e : End R}
    (h : Runs bookOps ne self l past p s es e s') :
    ∀ {σ}, Pic s σ → Known σ self → ∃ σ', Does P catching self l past p σ es e σ' ∧ Pic s' σ' ∧ Later σ σ' := by
  induction h with
  | ret => exact fun {σ} p k => ⟨σ, .ret, p, .refl σ⟩
  | throw => exact fun {σ} p k => ⟨σ, .throw, p, .refl σ⟩
  | log _ ih => intro σ p k; obtain ⟨σ', h1, h2⟩ := ih p k; exact ⟨σ', .log h1, h2⟩
  | logline _ ih => intro σ p k; obtain ⟨σ', h1, h2⟩ := ih p k; exact ⟨σ', .logline h1, h2⟩
  | reportError _ ih => intro σ p k; obtain ⟨σ', h1, h2⟩ := ih p k; exact ⟨σ', .reportError h1, h2⟩
  | hasErrors _ ih => intro σ p k; obtain ⟨σ', h1, h2⟩ := ih p k; exact ⟨σ', .hasErrors h1, h2⟩
  | named _ ih => intro σ p k; obtain ⟨σ', h1, h2⟩ := ih p k; exact ⟨σ', .named h1, h2⟩
  | setNamed hi _ ih => intro σ p k; obtain ⟨σ', h1, h2⟩ := ih p k; exact ⟨σ', .setNamed hi h1, h2⟩
  | get _ ih => intro σ p k; obtain ⟨σ', h1, h2⟩ := ih p k; exact ⟨σ', .get (p.user ▸ h1), h2⟩
  | set _ ih => intro σ p k; obtain ⟨σ', h1, h2, h3⟩ := ih (p.withUser _) k; exact ⟨σ', .set h1, h2, ⟨h3.made, h3.old⟩⟩
  | captured hf _ ih =>
    intro σ p k
    obtain ⟨σ', h1, h2⟩ := ih p k
    exact ⟨σ', .captured ((p.alive k).1 hf) h1, h2⟩
  | add ha _ ih =>
    intro σ p k
    obtain ⟨s1, g1, g2, g3⟩ := p.add _ _
    rw [g1] at ha
    cases ha
    obtain ⟨σ', h1, h2, h3⟩ := ih g2 (k.later g3)
    exact ⟨σ', .add h1, h2, g3.trans h3⟩
  | remove ha _ ih =>
    intro σ p k
    obtain ⟨s1, g1, g2, g3⟩ := p.remove _
    rw [g1] at ha
    cases ha
    obtain ⟨σ', h1, h2, h3⟩ := ih g2 (k.later g3)
    exact ⟨σ', .remove h1, h2, g3.trans h3⟩
  | clear _ ih =>
    intro σ p k
    obtain ⟨σ', h1, h2, h3⟩ := ih p.clear.1 (k.later p.clear.2)
    exact ⟨σ', .clear h1, h2, p.clear.2.trans h3⟩
  | execLine he _ ih =>
    intro σ p k
    obtain ⟨σ1, g1, g2, g3⟩ := hne (.line _) _ _ _ σ p he
    obtain ⟨σ', h1, h2, h3⟩ := ih g2 (k.later g3)
    exact ⟨σ', .execLine g1 h1, h2, g3.trans h3⟩
  | execInput he _ ih =>
    intro σ p k
    obtain ⟨σ1, g1, g2, g3⟩ := hne (.input _) _ _ _ σ p he
    obtain ⟨σ', h1, h2, h3⟩ := ih g2 (k.later g3)
    exact ⟨σ', .execInput g1 h1, h2, g3.trans h3⟩

theorem Pic.found {s : Sys (Book C D) W C D} {σ : Scene W C D} (p : Pic s σ) {n : Bytes} {cmd : Command C D}
    (h : bookOps.find s.reg n = .ok (some cmd)) : σ.commands n = some cmd.functors := by
  rw [p.find n] at h
  cases hn : σ.commands n with
  | none => rw [hn] at h; cases h
  | some fs => rw [hn] at h; cases h; rfl

theorem firstOfArity_mem {n : Nat} {fs : List (Inst C D)} {f : Inst C D} (h : FirstOfArity P n fs f) : f ∈ fs := by
  obtain ⟨pre, post, rfl, _⟩ := h
  simp

theorem input_sound {ne : Nested (Book C D) W C D} (hne : NeSound P catching ne) {depth : Nat} {i : Input} {s s' : Sys (Book C D) W C D}
    {out : ExecOut} {σ : Scene W C D} (p : Pic s σ) (h : executeInput P bookOps catching ne depth s i = .ok (s', out)) :
    ∃ σ', Performs P catching σ (.input i) σ' out ∧ Pic s' σ' ∧ Later σ σ' := by
  rcases executeInput_cases h with ⟨hn, rfl, rfl⟩ | ⟨hn, hf, rfl, rfl⟩ | ⟨hn, cmd, hf, hno, rfl, rfl⟩ |
    ⟨hn, cmd, f, hf, hs, hl, hd, he, rfl, rfl⟩ | ⟨hn, cmd, f, xs, es, e, hf, hs, hl, hx, hr, rfl⟩
  · exact ⟨σ, .noName hn, p, .refl σ⟩
  · refine ⟨σ, .unknown hn ?_, p, .refl σ⟩
    rw [p.find] at hf
    cases hc : σ.commands i.name with
    | none => rfl
    | some fs => rw [hc] at hf; cases hf
  · rw [countError_upToNul]
    exact ⟨σ, .count hn (p.found hf) hno, p, .refl σ⟩
  · exact ⟨σ, .mismatch hn (p.found hf) hs hd he, p, .refl σ⟩
  · have hc := p.found hf
    have hh : σ.Has f := ⟨_, _, hc, firstOfArity_mem hs⟩
    obtain ⟨σ', h1, h2⟩ := runs_sound hne hr (p.withCalls _) (p.known hh)
    refine ⟨σ', ?_, h2⟩
    cases e with
    | ret r => exact .returned hn hc hs hx h1
    | exn x =>
      simp only [endResult, caughtText_upToNul]
      cases catching with
      | true => exact .caught rfl hn hc hs hx h1
      | false => exact .passed rfl hn hc hs hx h1

theorem nested_sound (fuel depth : Nat) : NeSound P catching (nested P bookOps catching fuel depth) := by
  induction fuel generalizing depth with
  | zero =>
    intro req s s' out σ _ h
    cases req <;> cases h
  | succ fuel ih =>
    intro req s s' out σ p h
    obtain ⟨fuel', hf, h⟩ := exec_ok h
    cases hf
    rcases h with ⟨t, l, m, rfl, h1, h2, rfl, rfl⟩ | ⟨i, hm, h⟩
    · exact ⟨σ, .wrong ((p.reads t _).2 ⟨l, h1, h2⟩), p, .refl σ⟩
    · obtain ⟨σ', h1, h2⟩ := input_sound (ih (depth + 1)) p h
      refine ⟨σ', ?_, h2⟩
      cases req with
      | line t => exact .line ((p.reads t _).2 hm) h1
      | input j => cases hm; exact h1

theorem acts_sound {fuel : Nat} {acts : List (Action W C D)} {s s' : Sys (Book C D) W C D} {outs : List ExecOut} {σ : Scene W C D}
    (p : Pic s σ) (h : actsOut P bookOps catching fuel s acts = .ok (s', outs)) : ∃ σ', Acts P catching σ acts outs σ' ∧ Pic s' σ' := by
  induction acts generalizing s σ outs with
  | nil => cases h; exact ⟨σ, .done, p⟩
  | cons a acts ih =>
    simp only [actsOut] at h
    obtain ⟨⟨s1, o1⟩, h1, h⟩ := Res.bind_eq_ok.1 h
    obtain ⟨⟨s2, o2⟩, h2, h⟩ := Res.bind_eq_ok.1 h
    cases h
    cases a with
    | add n fs =>
      obtain ⟨s3, g1, g2, _⟩ := p.add n fs
      simp only [actOut, g1, Res.bind_ok] at h1
      cases h1
      obtain ⟨σ', k1, k2⟩ := ih g2 h2
      exact ⟨σ', .add k1, k2⟩
    | remove n =>
      obtain ⟨s3, g1, g2, _⟩ := p.remove n
      simp only [actOut, g1, Res.bind_ok] at h1
      cases h1
      obtain ⟨σ', k1, k2⟩ := ih g2 h2
      exact ⟨σ', .remove k1, k2⟩
    | clear =>
      cases h1
      obtain ⟨σ', k1, k2⟩ := ih p.clear.1 h2
      exact ⟨σ', .clear k1, k2⟩
    | setLexer l =>
      cases h1
      obtain ⟨σ', k1, k2⟩ := ih (p.withLexer l) h2
      exact ⟨σ', .setLexer k1, k2⟩
    | exec req =>
      simp only [actOut] at h1
      obtain ⟨⟨s3, o⟩, g1, g2⟩ := Res.bind_eq_ok.1 h1
      cases g2
      obtain ⟨σ1, g3, g4, _⟩ := nested_sound fuel 0 req _ _ _ σ p g1
      obtain ⟨σ', k1, k2⟩ := ih g4 h2
      exact ⟨σ', .exec g3 k1, k2⟩
    | setUser w =>
      cases h1
      obtain ⟨σ', k1, k2⟩ := ih (p.withUser w) h2
      exact ⟨σ', .setUser k1, k2⟩

/-! ## From the semantics to the model -/

theorem exec_more {fuel fuel' depth : Nat} (hle : fuel ≤ fuel') {s : Sys (Book C D) W C D} {req : Request} {x : Sys (Book C D) W C D × ExecOut}
    (h : (nested P bookOps catching fuel depth).exec s req = .ok x) : (nested P bookOps catching fuel' depth).exec s req = .ok x := by
  rcases exec_below (P := P) (ops := bookOps) (catching := catching) hle depth s req with h' | h'
  · rw [h'] at h; cases h
  · rw [← h']; exact h

theorem runs_more {fuel fuel' depth : Nat} (hle : fuel ≤ fuel') {self : Inst C D} {l : List Named} {R : Type}
    {past : List CtxEvent} {p : Prog W C D R} {s s' : Sys (Book C D) W C D} {es : List CtxEvent} {e : End R}
    (h : Runs bookOps (nested P bookOps catching fuel depth) self l past p s es e s') :
    Runs bookOps (nested P bookOps catching fuel' depth) self l past p s es e s' := by
  induction h with
  | ret => exact .ret
  | throw => exact .throw
  | log _ ih => exact .log ih
  | logline _ ih => exact .logline ih
  | reportError _ ih => exact .reportError ih
  | hasErrors _ ih => exact .hasErrors ih
  | named _ ih => exact .named ih
  | setNamed hi _ ih => exact .setNamed hi ih
  | get _ ih => exact .get ih
  | set _ ih => exact .set ih
  | captured hf _ ih => exact .captured hf ih
  | add ha _ ih => exact .add ha ih
  | remove ha _ ih => exact .remove ha ih
  | clear _ ih => exact .clear ih
  | execLine he _ ih => exact .execLine (exec_more (req := .line _) hle he) ih
  | execInput he _ ih => exact .execInput (exec_more (req := .input _) hle he) ih

/-- The run of a body in the model that a meaning stands for. -/
abbrev Ran (P : C → FunctorDef W C D) (catching : Bool) {R : Type} (self : Inst C D) (l : List Named) (past : List CtxEvent)
    (p : Prog W C D R) (σ : Scene W C D) (es : List CtxEvent) (e : End R) (σ' : Scene W C D) : Prop :=
  ∀ s depth, Pic s σ → Known σ self →
    ∃ fuel s', Runs bookOps (nested P bookOps catching fuel depth) self l past p s es e s' ∧ Pic s' σ' ∧ Later σ σ'

/-- The execution in the model that a meaning stands for. -/
abbrev Executed (P : C → FunctorDef W C D) (catching : Bool) (σ : Scene W C D) (req : Request) (σ' : Scene W C D) (out : ExecOut) : Prop :=
  ∀ s depth, Pic s σ →
    ∃ fuel s', (nested P bookOps catching fuel depth).exec s req = .ok (s', out) ∧ Pic s' σ' ∧ Later σ σ'

theorem ran_exec {R : Type} {self : Inst C D} {l : List Named} {past : List CtxEvent} {σ σ1 σ' : Scene W C D} {req : Request} {o : ExecOut}
    {p q : Prog W C D R} {es : List CtxEvent} {e : End R} (h1 : Executed P catching σ req σ1 o) (h2 : Ran P catching self l past q σ1 es e σ')
    (mk : ∀ {ne : Nested (Book C D) W C D} {s s1 s'}, ne.exec s req = .ok (s1, o) → Runs bookOps ne self l past q s1 es e s' →
      Runs bookOps ne self l past p s es e s') : Ran P catching self l past p σ es e σ' := by
  intro s depth pc k
  obtain ⟨f1, s1, a1, a2, a3⟩ := h1 s depth pc
  obtain ⟨f2, s2, b1, b2, b3⟩ := h2 s1 depth a2 (k.later a3)
  exact ⟨max f1 f2, s2, mk (exec_more (Nat.le_max_left ..) a1) (runs_more (Nat.le_max_right ..) b1), b2, a3.trans b3⟩

theorem Pic.find_some {s : Sys (Book C D) W C D} {σ : Scene W C D} (p : Pic s σ) {n : Bytes} {fs : List (Inst C D)}
    (h : σ.commands n = some fs) : bookOps.find s.reg n = .ok (some ⟨n, fs⟩) := by
  rw [p.find, h]; rfl

theorem exec_input {ne : Nat} {depth : Nat} {s : Sys (Book C D) W C D} {i : Input} :
    (nested P bookOps catching (ne + 1) depth).exec s (.input i) =
      executeInput P bookOps catching (nested P bookOps catching ne (depth + 1)) depth s i := rfl

theorem called_complete {σ σ' : Scene W C D} {i : Input} {fs : List (Inst C D)} {f : Inst C D} {xs : Args (P f.code).params}
    {es : List CtxEvent} {e : End (P f.code).R} (hn : i.name ≠ []) (hc : σ.commands i.name = some fs) (hs : FirstOfArity P i.arguments.length fs f)
    (hx : ConvertTo (P f.code).params i.arguments xs) (h : Ran P catching f i.namedArguments [] ((P f.code).body xs) σ es e σ') :
    Executed P catching σ (.input i) σ' (endResult catching i (P f.code).print es e) := by
  intro s depth p
  have hh : σ.Has f := ⟨_, _, hc, firstOfArity_mem hs⟩
  obtain ⟨fuel, s', h1, h2⟩ := h _ (depth + 1) (p.withCalls (s.calls ++ [(depth, f.id)])) (p.known hh)
  refine ⟨fuel + 1, s', ?_, h2⟩
  rw [exec_input]
  exact (executeInput_called hn (p.find_some hc) hs ((p.alive (p.known hh)).2 hh) hx).2 ⟨es, e, h1, rfl⟩

mutual

theorem does_complete : ∀ {R : Type} {self : Inst C D} {l : List Named} {past : List CtxEvent} {p : Prog W C D R} {σ : Scene W C D}
    {es : List CtxEvent} {e : End R} {σ' : Scene W C D}, Does P catching self l past p σ es e σ' → Ran P catching self l past p σ es e σ'
  | _, _, _, _, _, σ, _, _, _, .ret => fun s _ pc _ => ⟨0, s, .ret, pc, .refl σ⟩
  | _, _, _, _, _, σ, _, _, _, .throw => fun s _ pc _ => ⟨0, s, .throw, pc, .refl σ⟩
  | _, _, _, _, _, _, _, _, _, .log h => fun s d pc k => by
    obtain ⟨f, s', h1, h2⟩ := does_complete h s d pc k; exact ⟨f, s', .log h1, h2⟩
  | _, _, _, _, _, _, _, _, _, .logline h => fun s d pc k => by
    obtain ⟨f, s', h1, h2⟩ := does_complete h s d pc k; exact ⟨f, s', .logline h1, h2⟩
  | _, _, _, _, _, _, _, _, _, .reportError h => fun s d pc k => by
    obtain ⟨f, s', h1, h2⟩ := does_complete h s d pc k; exact ⟨f, s', .reportError h1, h2⟩
  | _, _, _, _, _, _, _, _, _, .hasErrors h => fun s d pc k => by
    obtain ⟨f, s', h1, h2⟩ := does_complete h s d pc k; exact ⟨f, s', .hasErrors h1, h2⟩
  | _, _, _, _, _, _, _, _, _, .named h => fun s d pc k => by
    obtain ⟨f, s', h1, h2⟩ := does_complete h s d pc k; exact ⟨f, s', .named h1, h2⟩
  | _, _, _, _, _, _, _, _, _, .setNamed hi h => fun s d pc k => by
    obtain ⟨f, s', h1, h2⟩ := does_complete h s d pc k; exact ⟨f, s', .setNamed hi h1, h2⟩
  | _, _, _, _, _, _, _, _, _, .get h => fun s d pc k => by
    obtain ⟨f, s', h1, h2⟩ := does_complete h s d pc k; exact ⟨f, s', .get (pc.user.symm ▸ h1), h2⟩
  | _, _, _, _, _, _, _, _, _, .set h => fun s d pc k => by
    obtain ⟨f, s', h1, h2, h3⟩ := does_complete h _ d (pc.withUser _) k; exact ⟨f, s', .set h1, h2, ⟨h3.made, h3.old⟩⟩
  | _, _, _, _, _, _, _, _, _, .captured hh h => fun s d pc k => by
    obtain ⟨f, s', h1, h2⟩ := does_complete h s d pc k; exact ⟨f, s', .captured ((pc.alive k).2 hh) h1, h2⟩
  | _, _, _, _, _, _, _, _, _, .add h => fun s d pc k => by
    obtain ⟨s1, g1, g2, g3⟩ := pc.add _ _
    obtain ⟨f, s', h1, h2, h3⟩ := does_complete h s1 d g2 (k.later g3)
    exact ⟨f, s', .add g1 h1, h2, g3.trans h3⟩
  | _, _, _, _, _, _, _, _, _, .remove h => fun s d pc k => by
    obtain ⟨s1, g1, g2, g3⟩ := pc.remove _
    obtain ⟨f, s', h1, h2, h3⟩ := does_complete h s1 d g2 (k.later g3)
    exact ⟨f, s', .remove g1 h1, h2, g3.trans h3⟩
  | _, _, _, _, _, _, _, _, _, .clear h => fun s d pc k => by
    obtain ⟨f, s', h1, h2, h3⟩ := does_complete h _ d pc.clear.1 (k.later pc.clear.2)
    exact ⟨f, s', .clear h1, h2, pc.clear.2.trans h3⟩
  | _, _, _, _, _, _, _, _, _, .execLine h1 h2 => ran_exec (performs_complete h1) (does_complete h2) (fun a b => .execLine a b)
  | _, _, _, _, _, _, _, _, _, .execInput h1 h2 => ran_exec (performs_complete h1) (does_complete h2) (fun a b => .execInput a b)

theorem performs_complete : ∀ {σ : Scene W C D} {req : Request} {σ' : Scene W C D} {out : ExecOut},
    Performs P catching σ req σ' out → Executed P catching σ req σ' out
  | σ, _, _, _, .wrong h => fun s d p => by
    obtain ⟨l, h1, h2⟩ := (p.reads _ _).1 h
    exact ⟨1, s, by simp only [Nested.exec, nested, executeLine, h1, h2, Res.bind_ok, ExecResult.empty, Input.empty], p, .refl σ⟩
  | _, _, _, _, .line h hp => fun s d p => by
    obtain ⟨f, s', h1, h2⟩ := performs_complete hp s d p
    obtain ⟨f', rfl, _⟩ := exec_ok h1
    refine ⟨f' + 1, s', ?_, h2⟩
    rw [exec_means (req := .line _) ((p.reads _ _).1 h)]
    exact h1
  | σ, _, _, _, .noName hn => fun s d p =>
    ⟨1, s, by rw [exec_input, executeInput_empty hn], p, .refl σ⟩
  | σ, _, _, _, .unknown hn hc => fun s d p =>
    ⟨1, s, by rw [exec_input, executeInput_unknown hn (by rw [p.find, hc]; rfl)]; rfl, p, .refl σ⟩
  | σ, _, _, _, .count hn hc hno => fun s d p =>
    ⟨1, s, by rw [exec_input, executeInput_count hn (p.find_some hc) hno, countError_upToNul], p, .refl σ⟩
  | σ, _, _, _, .mismatch hn hc hs hd he => fun s d p => by
    have hh : σ.Has _ := ⟨_, _, hc, firstOfArity_mem hs⟩
    exact ⟨1, s, by rw [exec_input,
      executeInput_rejected hn (p.find_some hc) hs ((p.alive (p.known hh)).2 hh) hd he], p, .refl σ⟩
  | _, _, _, _, .returned hn hc hs hx h => called_complete hn hc hs hx (does_complete h)
  | _, _, _, _, .caught hcat hn hc hs hx h => by
    have := called_complete hn hc hs hx (does_complete h)
    simpa only [endResult, hcat, if_true, caughtText_upToNul] using this
  | _, _, _, _, .passed hcat hn hc hs hx h => by
    have := called_complete hn hc hs hx (does_complete h)
    simpa only [endResult, hcat, Bool.false_eq_true, if_false] using this

end

theorem acts_more {fuel fuel' : Nat} (hle : fuel ≤ fuel') {s : Sys (Book C D) W C D} {acts : List (Action W C D)}
    {x : Sys (Book C D) W C D × List ExecOut} (h : actsOut P bookOps catching fuel s acts = .ok x) :
    actsOut P bookOps catching fuel' s acts = .ok x := by
  induction acts generalizing s x with
  | nil => exact h
  | cons a acts ih =>
    simp only [actsOut] at h ⊢
    obtain ⟨y, h1, h⟩ := Res.bind_eq_ok.1 h
    obtain ⟨z, h2, h⟩ := Res.bind_eq_ok.1 h
    have : actOut P bookOps catching fuel' s a = .ok y := by
      cases a with
      | exec req =>
        simp only [actOut] at h1 ⊢
        obtain ⟨u, g1, g2⟩ := Res.bind_eq_ok.1 h1
        have g3 : execute P bookOps catching fuel' s req = .ok u := exec_more hle g1
        rw [g3]
        exact g2
      | add n fs => exact h1
      | remove n => exact h1
      | clear => exact h1
      | setLexer l => exact h1
      | setUser w => exact h1
    rw [this, Res.bind_ok, ih h2, Res.bind_ok]
    exact h

theorem acts_complete {acts : List (Action W C D)} {outs : List ExecOut} {σ σ' : Scene W C D} (h : Acts P catching σ acts outs σ') :
    ∀ {s}, Pic s σ → ∃ fuel s', actsOut P bookOps catching fuel s acts = .ok (s', outs) ∧ Pic s' σ' := by
  induction h with
  | done => exact fun {s} p => ⟨0, s, rfl, p⟩
  | add _ ih =>
    intro s p
    obtain ⟨s1, g1, g2, _⟩ := p.add _ _
    obtain ⟨f, s', h1, h2⟩ := ih g2
    exact ⟨f, s', by simp only [actsOut, actOut, g1, Res.bind_ok, h1, List.nil_append], h2⟩
  | remove _ ih =>
    intro s p
    obtain ⟨s1, g1, g2, _⟩ := p.remove _
    obtain ⟨f, s', h1, h2⟩ := ih g2
    exact ⟨f, s', by simp only [actsOut, actOut, g1, Res.bind_ok, h1, List.nil_append], h2⟩
  | clear _ ih =>
    intro s p
    obtain ⟨f, s', h1, h2⟩ := ih p.clear.1
    exact ⟨f, s', by simp only [actsOut, actOut, Res.bind_ok, h1, List.nil_append], h2⟩
  | setLexer _ ih =>
    intro s p
    obtain ⟨f, s', h1, h2⟩ := ih (p.withLexer _)
    exact ⟨f, s', by simp only [actsOut, actOut, Res.bind_ok, h1, List.nil_append], h2⟩
  | exec hp _ ih =>
    intro s p
    obtain ⟨f1, s1, g1, g2, _⟩ := performs_complete hp s 0 p
    obtain ⟨f2, s', h1, h2⟩ := ih g2
    refine ⟨max f1 f2, s', ?_, h2⟩
    have g3 : execute P bookOps catching (max f1 f2) s _ = .ok (s1, _) := exec_more (Nat.le_max_left ..) g1
    simp only [actsOut, actOut, g3, Res.bind_ok, acts_more (Nat.le_max_right f1 f2) h1, List.singleton_append]
  | setUser _ ih =>
    intro s p
    obtain ⟨f, s', h1, h2⟩ := ih (p.withUser _)
    exact ⟨f, s', by simp only [actsOut, actOut, Res.bind_ok, h1, List.nil_append], h2⟩

/-! ## The beginning, and other containers -/

theorem Pic.start {cfg : LexCfg} (hp : Proper cfg) (w : W) :
    Pic (freshSys ([] : Book C D) (some (fitting cfg)) w) (Scene.start (delims cfg) w) := by
  have none_has : ∀ f : Inst C D, ¬ (Scene.start (delims cfg) w).Has f := by
    rintro f ⟨n, fs, h, _⟩
    cases h
  refine ⟨fun n c => by simp [standing, dictAfter, freshSys], fun n => rfl, rfl, rfl, fun t r => ?_, rfl, fun f h => absurd h (none_has f),
    fun n fs m gs f g h1 => (by cases h1), fun id => by simp [freshSys, Scene.start]⟩
  simp only [ReadsWith, freshSys, Option.some.injEq, exists_eq_left', Scene.start]
  by_cases hl : t.length < 2 ^ 64 - 1
  · simp only [fitting, hl, if_true]
    cases r with
    | ok i => simp only [ReadsAs, hl, true_and, lexRead_ok_iff hp hl]
    | error m => simp only [ReadsAs, hl, true_and, lexRead_error_iff hp hl]
  · simp only [fitting, hl, if_false]
    cases r <;> simp [ReadsAs, hl]

variable {S : Type} {Safe : List (RegEvent C D) → Prop} {ops : RegOps S C D} {I : List (RegEvent C D) → S → Prop}

theorem Pic.shows (m : Implements Safe ops I) {s : Sys S W C D} {t : Sys (Book C D) W C D} {σ : Scene W C D} (p : Pic t σ)
    (a : Alike I BookAfter s t) (hs : Safe t.history) : Shows ops s σ := by
  refine ⟨a.user.trans p.user, fun n => ?_, a.next.trans p.made, a.history.trans p.changes, fun id => (a.freed id).trans (p.freed id)⟩
  unfold bindingsGet
  rw [m.find a.reg1 hs, p.commands]

theorem Alike.symm {S1 S2 : Type} {I1 : List (RegEvent C D) → S1 → Prop} {I2 : List (RegEvent C D) → S2 → Prop}
    {s1 : Sys S1 W C D} {s2 : Sys S2 W C D} (a : Alike I1 I2 s1 s2) : Alike I2 I1 s2 s1 :=
  ⟨a.history ▸ a.reg2, a.history ▸ a.reg1, a.lexer.symm, a.user.symm, fun id => (a.freed id).symm, a.next.symm, a.calls.symm, a.history.symm⟩

/-- A run on a container that behaves like a dictionary has a meaning. -/
theorem container_sound (hpre : ∀ a b, Safe (a ++ b) → Safe a) (m : Implements Safe ops I) {m0 : S} (h0 : I [] m0) {cfg : LexCfg}
    (hp : Proper cfg) {w : W} {fuel : Nat} {acts : List (Action W C D)} {s : Sys S W C D} {outs : List ExecOut}
    (h : actsOut P ops catching fuel (freshSys m0 (some (fitting cfg)) w) acts = .ok (s, outs)) (hs : Safe s.history) :
    ∃ σ, Acts P catching (Scene.start (delims cfg) w) acts outs σ ∧ Shows ops s σ := by
  have p := Pic.start (C := C) (D := D) hp w
  have al : Alike BookAfter I (freshSys ([] : Book C D) (some (fitting cfg)) w) (freshSys m0 (some (fitting cfg)) w) :=
    ⟨p.book, h0, rfl, rfl, fun _ => Iff.rfl, rfl, rfl, rfl⟩
  have := fol_acts hpre (book_implements Safe) m (P := P) catching fuel acts al (hpre [] s.history hs)
  rw [h] at this
  obtain ⟨t, h1, h2⟩ := this hs
  obtain ⟨σ, h3, h4⟩ := acts_sound p h1
  exact ⟨σ, h3, h4.shows m h2.symm (by rw [h2.history]; exact hs)⟩

/-- What has a meaning runs like that on a container that behaves like a dictionary. -/
theorem container_complete (hpre : ∀ a b, Safe (a ++ b) → Safe a) (m : Implements Safe ops I) {m0 : S} (h0 : I [] m0) {cfg : LexCfg}
    (hp : Proper cfg) {w : W} {acts : List (Action W C D)} {outs : List ExecOut} {σ : Scene W C D}
    (h : Acts P catching (Scene.start (delims cfg) w) acts outs σ) (hs : Safe σ.changes) :
    ∃ fuel s, actsOut P ops catching fuel (freshSys m0 (some (fitting cfg)) w) acts = .ok (s, outs) ∧ Shows ops s σ := by
  have p := Pic.start (C := C) (D := D) hp w
  obtain ⟨fuel, t, h1, h2⟩ := acts_complete h p
  have al : Alike I BookAfter (freshSys m0 (some (fitting cfg)) w) (freshSys ([] : Book C D) (some (fitting cfg)) w) :=
    ⟨h0, p.book, rfl, rfl, fun _ => Iff.rfl, rfl, rfl, rfl⟩
  have ht : Safe t.history := by rw [h2.changes]; exact hs
  have := fol_acts hpre m (book_implements Safe) (P := P) catching fuel acts al (hpre [] σ.changes hs)
  rw [h1] at this
  obtain ⟨s, h3, h4⟩ := this ht
  exact ⟨fuel, s, h3, h2.shows m h4 ht⟩

end Coil
