import Verif.Proofs.Console
import Verif.Proofs.LexMain

/-! # The console: registration, lines, rounds -/

namespace Coil
namespace Console
open Spec Spec.Console

variable {X S : Type} {es : List (Sample X)} {ops : RegOps S Code Unit} {catching : Bool} {fuel depth : Nat} {cfg : LexCfg}
  {s : Sys S (Con X) Code Unit}

/-! ## Registration -/

/-- A history of additions. -/
def OnlyAdds (h : List (RegEvent Code Unit)) : Prop := ∀ ev ∈ h, ∃ n fs, ev = .added n fs

theorem OnlyAdds.snoc {h : List (RegEvent Code Unit)} (hh : OnlyAdds h) (n : Bytes) (fs : List (Inst Code Unit)) :
    OnlyAdds (h ++ [.added n fs]) := by
  intro ev hev
  rcases List.mem_append.1 hev with h1 | h1
  · exact hh ev h1
  · exact ⟨n, fs, by simpa using h1⟩

theorem OnlyAdds.safe {h : List (RegEvent Code Unit)} (hh : OnlyAdds h) : SafeHistory h := by
  unfold SafeHistory
  generalize Phase.calm = ph
  generalize ([] : List (Bytes × Command Code Unit)) = l
  induction h generalizing ph l with
  | nil => trivial
  | cons ev h ih =>
    obtain ⟨n, fs, rfl⟩ := hh ev (List.mem_cons_self ..)
    exact ⟨trivial, ih (fun ev' h' => hh ev' (List.mem_cons_of_mem _ h')) _ _⟩

/-- The registry contains the commands of a table. -/
structure Filled (I : List (RegEvent Code Unit) → S → Prop) (T : Bytes → Option Code) (s : Sys S (Con X) Code Unit) : Prop where
  reg : I s.history s.reg
  adds : OnlyAdds s.history
  freed : s.freed = []
  unknown : ∀ name, T name = none → standing s.history name = none
  known : ∀ name c, T name = some c → ∃ id, standing s.history name = some ⟨name, [⟨id, c, ()⟩]⟩

variable {Safe : List (RegEvent Code Unit) → Prop} {I : List (RegEvent Code Unit) → S → Prop}

/-- Registering a command under a new name. -/
theorem Filled.add (hm : Implements Safe ops I) (hsafe : ∀ h, OnlyAdds h → h.length ≤ n → Safe h) {T : Bytes → Option Code} (hf : Filled I T s)
    (hn : s.history.length < n) (name : Bytes) (c : Code) (hnew : T name = none) :
    ∃ s', bindingsAdd ops s name [(c, ())] = .ok s' ∧ Filled I (fun k => if k = name then some c else T k) s' ∧
      s'.lexer = s.lexer ∧ s'.user = s.user ∧ s'.history.length = s.history.length + 1 := by
  have hfind := hm.find hf.reg (hsafe _ hf.adds (by omega)) name
  obtain ⟨m', h1, h2⟩ := hm.put name [⟨s.next, c, ()⟩] hf.reg (hsafe _ (hf.adds.snoc _ _) (by simp; omega))
  have hput : bindingsAdd ops s name [(c, ())] = .ok { s with reg := m', next := s.next + 1, freed := s.freed ++ idsOf (standing s.history name),
                                                               history := s.history ++ [.added name [⟨s.next, c, ()⟩]] } := by
    simp only [bindingsAdd, hfind, Res.bind_ok, allocate, h1]
    rfl
  refine ⟨_, hput, ⟨h2, hf.adds.snoc _ _, ?_, ?_, ?_⟩, rfl, rfl, by simp⟩
  · simp only [hf.freed, hf.unknown name hnew]
    rfl
  · intro k hk
    simp only [standing_snoc, asDictOp, dictStep]
    by_cases e : k = name
    · simp [e] at hk
    · simp only [e, if_false] at hk ⊢
      exact hf.unknown k hk
  · intro k c' hk
    simp only [standing_snoc, asDictOp, dictStep]
    by_cases e : k = name
    · simp only [e, if_true, Option.some.injEq] at hk
      subst hk
      exact ⟨s.next, by simp [e]⟩
    · simp only [e, if_false] at hk ⊢
      exact hf.known k c' hk

/-- The table after registering the examples from position `i` on. -/
def tableAfter (T : Bytes → Option Code) (es : List (Sample X)) (i : Nat) (name : Bytes) : Option Code :=
  match T name with
  | some c => some c
  | none => (es.findIdx? (fun e => e.name = name)).map (fun k => .sample (k + i))

theorem bindSamples_filled (hm : Implements Safe ops I) {n : Nat} (hsafe : ∀ h, OnlyAdds h → h.length ≤ n → Safe h) (l : List (Sample X))
    (i : Nat) {T : Bytes → Option Code} (hf : Filled I T s) (hn : s.history.length + l.length ≤ n) (hd : (l.map (·.name)).Nodup)
    (hfr : ∀ e ∈ l, T e.name = none) :
    ∃ s', bindSamples ops s l i = .ok s' ∧ Filled I (tableAfter T l i) s' ∧ s'.lexer = s.lexer ∧ s'.user = s.user := by
  induction l generalizing s T i with
  | nil =>
    refine ⟨s, rfl, ?_, rfl, rfl⟩
    have : tableAfter T ([] : List (Sample X)) i = T := by
      funext k
      unfold tableAfter
      cases T k <;> rfl
    rw [this]
    exact hf
  | cons e l ih =>
    simp only [List.length_cons] at hn
    obtain ⟨s1, h1, h2, h3, h4, h5⟩ := hf.add hm hsafe (by omega) e.name (.sample i) (hfr e (List.mem_cons_self ..))
    simp only [List.map_cons, List.nodup_cons] at hd
    obtain ⟨s2, g1, g2, g3, g4⟩ := ih (i + 1) h2 (by omega) hd.2 (by
      intro e' he'
      have : e'.name ≠ e.name := fun hc => hd.1 (hc ▸ List.mem_map_of_mem he')
      simp only [this, if_false]
      exact hfr e' (List.mem_cons_of_mem _ he'))
    refine ⟨s2, by simp only [bindSamples, h1, Res.bind_ok, g1], ?_, g3.trans h3, g4.trans h4⟩
    have : tableAfter (fun k => if k = e.name then some (.sample i) else T k) l (i + 1) = tableAfter T (e :: l) i := by
      funext k
      unfold tableAfter
      by_cases hk : k = e.name
      · subst hk
        simp [hfr e (List.mem_cons_self ..), List.findIdx?_cons]
      · simp only [hk, if_false]
        cases T k with
        | some c => rfl
        | none =>
          simp only [List.findIdx?_cons, Ne.symm hk, if_false, decide_false, Bool.false_eq_true, Option.map_map]
          congr 1
          funext j
          simp only [Function.comp, Code.sample.injEq]
          omega
    rw [← this]
    exact g2

theorem setup_ready (hm : Implements Safe ops I) {m : S} (hI : I [] m) {n : Nat} (hsafe : ∀ h, OnlyAdds h → h.length ≤ n → Safe h)
    (hs : Sensible d es) (hn : es.length + 3 ≤ n) (lexer : Lexer) (x : X) :
    ∃ s, setup ops m lexer x es = .ok s ∧ Ready es ops lexer s ∧ s.user = ⟨false, [], x⟩ := by
  have f0 : Filled I (fun _ => none) (⟨m, some lexer, ⟨false, [], x⟩, [], 0, [], []⟩ : Sys S (Con X) Code Unit) :=
    ⟨hI, (fun ev h => nomatch h), rfl, fun name _ => rfl, (fun name c h => nomatch h)⟩
  obtain ⟨s1, a1, f1, l1, u1, c1⟩ := f0.add hm hsafe (show 0 < n by omega) (lit "help") .help rfl
  obtain ⟨s2, a2, f2, l2, u2, c2⟩ := f1.add hm hsafe (by rw [c1]; simp only [List.length_nil]; omega) (lit "exit") .exit (by decide +kernel)
  obtain ⟨s3, a3, f3, l3, u3, c3⟩ := f2.add hm hsafe (by rw [c2, c1]; simp only [List.length_nil]; omega) (lit "run_all") .runAll
    (by decide +kernel)
  obtain ⟨s4, a4, f4, l4, u4⟩ := bindSamples_filled hm hsafe es 0 f3 (by rw [c3, c2, c1]; simp only [List.length_nil]; omega) hs.distinct (by
    intro e he
    obtain ⟨h1, h2, h3⟩ := hs.fresh e he
    simp [h1, h2, h3])
  have hfind := hm.find f4.reg (by
    have : ∀ (l : List (Sample X)) (i : Nat) (s s' : Sys S (Con X) Code Unit), bindSamples ops s l i = .ok s' →
        s'.history.length = s.history.length + l.length := by
      intro l
      induction l with
      | nil => intro i s s' h; cases h; rfl
      | cons e l ih =>
        intro i s s' h
        simp only [bindSamples, Res.bind_eq_ok] at h
        obtain ⟨t, h1, h2⟩ := h
        have := ih _ _ _ h2
        simp only [bindingsAdd, Res.bind_eq_ok, Res.ok.injEq] at h1
        obtain ⟨_, _, _, _, rfl⟩ := h1
        simp only [List.length_append, List.length_cons, List.length_nil] at this ⊢
        omega
    have h4 := this _ _ _ _ a4
    exact hsafe _ f4.adds (by rw [h4, c3, c2, c1]; simp only [List.length_nil]; omega))
  have htab : ∀ name, tableAfter (fun k => if k = lit "run_all" then some .runAll else
      if k = lit "exit" then some .exit else if k = lit "help" then some .help else none) es 0 name = codeOf es name := by
    intro name
    unfold tableAfter codeOf
    by_cases h1 : name = lit "help"
    · rw [h1]
      have e1 : lit "help" ≠ lit "run_all" := by decide +kernel
      have e2 : lit "help" ≠ lit "exit" := by decide +kernel
      simp only [e1, e2, if_false, if_true]
    · by_cases h2 : name = lit "exit"
      · rw [h2]
        have e1 : lit "exit" ≠ lit "run_all" := by decide +kernel
        have e2 : lit "exit" ≠ lit "help" := by decide +kernel
        simp only [e1, e2, if_false, if_true]
      · by_cases h3 : name = lit "run_all"
        · rw [h3]
          have e1 : lit "run_all" ≠ lit "exit" := by decide +kernel
          have e2 : lit "run_all" ≠ lit "help" := by decide +kernel
          simp only [e1, e2, if_false, if_true]
        · simp only [h1, h2, h3, if_false, Nat.add_zero]
  refine ⟨s4, by simp only [setup, a1, a2, a3, a4, Res.bind_ok], ⟨?_, f4.freed, ?_, ?_⟩, ?_⟩
  · rw [l4, l3, l2, l1]
  · intro name hc
    rw [hfind, f4.unknown name ((htab name).trans hc)]
  · intro name c hc
    obtain ⟨id, hid⟩ := f4.known name c ((htab name).trans hc)
    exact ⟨id, by rw [hfind, hid]⟩
  · rw [u4, u3, u2, u1]

/-! ## Lines -/

theorem line_reply (hp : Proper cfg) (hs : Sensible (delims cfg) es) (h : Ready es ops (lexRead cfg) s) {line : Bytes} {r : Reply X}
    (ha : Answers (delims cfg) catching es s.user.state line r) :
    ∃ s', runLine es ops catching (fuel + 2) s line = .ok (match r.dies with | none => .goes s' | some e => .terminated s' e) ∧
      Ready es ops (lexRead cfg) s' ∧ s'.user = ⟨s.user.exit || r.exit, s.user.out ++ r.text, r.state⟩ := by
  have key : ∀ o s1, execute (program es) ops catching (fuel + 2) s (.line line) = .ok (s1, o) → Reacts s s1 o r →
      ∃ s', runLine es ops catching (fuel + 2) s line = .ok (match r.dies with | none => .goes s' | some e => .terminated s' e) ∧
        Ready es ops (lexRead cfg) s' ∧ s'.user = ⟨s.user.exit || r.exit, s.user.out ++ r.text, r.state⟩ := by
    intro o s1 he hr
    cases o with
    | ok res =>
      have hd : r.dies = none := hr.dies.symm
      refine ⟨print s1 (printResult res), by simp only [runLine, he, Res.bind_ok, hd], h.same ⟨hr.same.reg, hr.same.lexer, hr.same.freed⟩, ?_⟩
      have := hr.out
      simp only [shown] at this
      simp only [print, this, hr.exit, hr.state]
    | error e =>
      have hd : r.dies = some e := hr.dies.symm
      refine ⟨s1, by simp only [runLine, he, Res.bind_ok, hd], h.same hr.same, ?_⟩
      have := hr.out
      simp only [shown, List.append_nil] at this
      rw [← this, ← hr.exit, ← hr.state]
  cases ha with
  | wrong hw =>
    obtain ⟨hl, hw⟩ := hw
    refine key _ s ?_ (reacts_complain Input.empty _)
    simp only [execute, nested, Nested.exec, executeLine, h.lexer, (lexRead_error_iff hp hl).2 hw, Res.bind_ok]
    rfl
  | command hc =>
    rename_i i
    obtain ⟨hl, hc⟩ := hc
    obtain ⟨s1, o, h1, h2⟩ := exec_reply (catching := catching) (fuel := fuel) (depth := 0) hp hs h i
    refine key o s1 ?_ h2
    rw [← h1]
    exact exec_means (req := .line line) ⟨_, h.lexer, (lexRead_ok_iff hp hl).2 hc⟩

/-! ## Rounds -/

/-- Reading these lines leaves this input. -/
inductive Yields : Bytes → List Bytes → Bytes → Prop
  | nil {i} : Yields i [] i
  | cons {i ls i'} : Yields (getline i).2 ls i' → Yields i ((getline i).1 :: ls) i'

/-- A status with the ending, the printed text and the state of the examples. -/
def Is (es : List (Sample X)) (ops : RegOps S Code Unit) (lexer : Lexer) (input : Bytes) (out : Bytes) (x : X) : Ending → Status S X → Prop
  | .waits, st => ∃ s, st = .looping s input ∧ Ready es ops lexer s ∧ s.user = ⟨false, out, x⟩
  | .exited, st => ∃ s, st = .ended s ∧ s.user = ⟨true, out, x⟩
  | .died e, st => ∃ s, st = .terminated s e ∧ s.user.out = out ∧ s.user.state = x

theorem rounds_ended (n : Nat) (s : Sys S (Con X) Code Unit) : rounds es ops catching fuel n (.ended s) = .ok (.ended s) := by
  induction n with
  | zero => rfl
  | succ n ih => simp only [rounds, round, Res.bind_ok, ih]

theorem rounds_terminated (n : Nat) (s : Sys S (Con X) Code Unit) (e : Exn) :
    rounds es ops catching fuel n (.terminated s e) = .ok (.terminated s e) := by
  induction n with
  | zero => rfl
  | succ n ih => simp only [rounds, round, Res.bind_ok, ih]

theorem rounds_add (n m : Nat) (st : Status S X) : rounds es ops catching fuel (n + m) st =
    (rounds es ops catching fuel n st >>= rounds es ops catching fuel m) := by
  induction n generalizing st with
  | zero => simp [rounds]
  | succ n ih =>
    rw [Nat.add_right_comm]
    simp only [rounds]
    cases round es ops catching fuel st with
    | ok st' => simp only [Res.bind_ok, ih]
    | ub u => rfl
    | diverge => rfl

/-- **A session.** -/
theorem session_rounds (hp : Proper cfg) (hs : Sensible (delims cfg) es) {x x' : X} {lines : List Bytes} {text : Bytes} {e : Ending}
    (hx : Session (delims cfg) catching es x lines text x' e) : ∀ {s : Sys S (Con X) Code Unit} {out input input' : Bytes}, Yields input lines input' →
    Ready es ops (lexRead cfg) s → s.user = ⟨false, out, x⟩ →
    ∃ st, rounds es ops catching (fuel + 2) lines.length (.looping s input) = .ok st ∧ Is es ops (lexRead cfg) input' (out ++ text) x' e st := by
  induction hx with
  | waits =>
    intro s out input input' hy h hu
    cases hy
    exact ⟨_, rfl, s, rfl, h, by simp [hu]⟩
  | line ha he hd _ ih =>
    intro s out input input' hy h hu
    cases hy with
    | cons hy =>
      have hpr : (print s (lit ">>> ")).user = ⟨false, out ++ lit ">>> ", s.user.state⟩ := by rw [print, hu]
      obtain ⟨s1, h1, h2, h3⟩ := line_reply (fuel := fuel) hp hs (h.same (s' := print s (lit ">>> ")) ⟨rfl, rfl, rfl⟩) (by rw [hpr, hu]; exact ha)
      rw [hpr] at h3
      simp only [Bool.false_or, he] at h3
      obtain ⟨st, g1, g2⟩ := ih hy h2 h3
      refine ⟨st, ?_, ?_⟩
      · simp only [List.length_cons, rounds, round, h1, hd, Res.bind_ok, check, h3, Bool.false_eq_true, if_false, g1]
      · simpa only [List.append_assoc] using g2
  | exit ha he hd =>
    intro s out input input' hy h hu
    cases hy with
    | cons hy =>
      have hpr : (print s (lit ">>> ")).user = ⟨false, out ++ lit ">>> ", s.user.state⟩ := by rw [print, hu]
      obtain ⟨s1, h1, h2, h3⟩ := line_reply (fuel := fuel) hp hs (h.same (s' := print s (lit ">>> ")) ⟨rfl, rfl, rfl⟩) (by rw [hpr, hu]; exact ha)
      rw [hpr] at h3
      simp only [Bool.false_or, he] at h3
      refine ⟨.ended s1, ?_, s1, rfl, ?_⟩
      · simp only [List.length_cons, rounds, round, h1, hd, Res.bind_ok, check, h3, if_true, rounds_ended]
      · simpa only [List.append_assoc] using h3
  | dies ha hd =>
    intro s out input input' hy h hu
    cases hy with
    | cons hy =>
      have hpr : (print s (lit ">>> ")).user = ⟨false, out ++ lit ">>> ", s.user.state⟩ := by rw [print, hu]
      obtain ⟨s1, h1, h2, h3⟩ := line_reply (fuel := fuel) hp hs (h.same (s' := print s (lit ">>> ")) ⟨rfl, rfl, rfl⟩) (by rw [hpr, hu]; exact ha)
      rw [hpr] at h3
      refine ⟨.terminated s1 _, ?_, s1, rfl, ?_, ?_⟩
      · simp only [List.length_cons, rounds, round, h1, hd, Res.bind_ok, rounds_terminated]
      · rw [h3]; simp only [List.append_assoc]
      · rw [h3]

/-! ## The input -/

theorem getline_feed {l : Bytes} (h : OneLine l) (rest : Bytes) : getline (l ++ 10 :: rest) = (l, rest) := by
  induction l with
  | nil => simp [getline]
  | cons c l ih =>
    have h1 : c ≠ 10 := h c (List.mem_cons_self ..)
    rw [List.cons_append, getline, ih (fun c' h' => h c' (List.mem_cons_of_mem _ h'))]
    simp [h1]

theorem getline_rest {l : Bytes} (h : OneLine l) : getline l = (l, []) := by
  induction l with
  | nil => rfl
  | cons c l ih =>
    have h1 : c ≠ 10 := h c (List.mem_cons_self ..)
    rw [getline, ih (fun c' h' => h c' (List.mem_cons_of_mem _ h'))]
    simp [h1]

theorem yields_empty (n : Nat) : Yields [] (List.replicate n []) [] := by
  induction n with
  | zero => exact .nil
  | succ n ih => exact .cons (i := []) ih

theorem yields_asInput {lines : List Bytes} {rest : Bytes} (hl : ∀ l ∈ lines, OneLine l) (hr : OneLine rest) (n : Nat) :
    ∃ i', Yields (asInput lines rest) (firstLines lines rest n) i' := by
  induction lines generalizing n with
  | nil =>
    cases n with
    | zero => exact ⟨_, .nil⟩
    | succ n =>
      refine ⟨[], ?_⟩
      have h1 := Yields.cons (i := rest) (ls := List.replicate n []) (i' := []) (by rw [getline_rest hr]; exact yields_empty n)
      rw [getline_rest hr] at h1
      have : firstLines [] rest (n + 1) = rest :: List.replicate n [] := by
        simp [firstLines, List.take_replicate]
      rw [this]
      exact h1
  | cons l lines ih =>
    cases n with
    | zero => exact ⟨_, .nil⟩
    | succ n =>
      obtain ⟨i', hi⟩ := ih (fun l' h' => hl l' (List.mem_cons_of_mem _ h')) n
      have e : asInput (l :: lines) rest = l ++ 10 :: asInput lines rest := by simp [asInput]
      have hg := getline_feed (hl l (List.mem_cons_self ..)) (asInput lines rest)
      refine ⟨i', ?_⟩
      have h1 := Yields.cons (i := l ++ 10 :: asInput lines rest) (ls := firstLines lines rest n) (i' := i') (by rw [hg]; exact hi)
      rw [hg] at h1
      have : firstLines (l :: lines) rest (n + 1) = l :: firstLines lines rest n := by
        simp only [firstLines, List.cons_append, List.take_succ_cons, List.cons.injEq, true_and]
        rw [List.replicate_succ', ← List.cons_append, ← List.append_assoc, List.take_append_of_le_length]
        simp
        omega
      rw [e, this]
      exact h1

theorem firstLines_length (lines : List Bytes) (rest : Bytes) (n : Nat) : (firstLines lines rest n).length = n := by
  simp only [firstLines, List.length_take, List.length_append, List.length_cons, List.length_replicate]
  omega

end Console
end Coil
