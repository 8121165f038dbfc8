import Verif.Proofs.Names

/-!
# Names and places of commands (C62, C63)

The specification (`Spec.rowsRun`) keeps the names in a list. Which position a look-up finds is arbitrary, so that the statements hold for
every hash function and also for a damaged table (C24).
-/

namespace Coil
open Spec Names
open Fun (alive alive_get alive_lt)

/-! ## C62 -/

/-- **C62 (names).** After every history of calls, the name of every command reads as the name that it was added with, and its functions are
those of the last `add` for its place. -/
theorem C62_names (ops : List Op) {l : List Row} (hs : rowsRun 0 [] ops = some l) :
    ∃ s, run State.init ops = .ok s ∧ s.nodes.length = l.length ∧
      ∀ (j : Nat) r, l[j]? = some r → ∃ n, s.nodes[j]? = some n ∧ readView s n.name = .ok r.1 ∧ n.cmd = r.2 := by
  obtain ⟨s, a, h1, h2⟩ := run_spec Inv.init hs
  refine ⟨s, h1, f2_len h2.rel, fun j r hj => ?_⟩
  obtain ⟨n, hn, b, f, hk, ht, hname, hcmd⟩ := Fun.f2_get h2.rel hj
  refine ⟨n, hn, ?_, hcmd⟩
  obtain ⟨x, hx⟩ := alive_get (h2.aliveKey hn hk)
  rw [ht] at hx
  simp only [Option.some.injEq, Prod.mk.injEq] at hx
  simp only [readView, hname, ht, hx.2, Nat.le_refl, if_true, List.take_length]

/-- **C62 (texts).** The live text blocks are those of the keys, one for each command: nothing is released twice (that would be undefined
behaviour) and nothing is left behind. -/
theorem C62_texts (ops : List Op) {l : List Row} (hs : rowsRun 0 [] ops = some l) :
    ∃ s, run State.init ops = .ok s ∧
      (∀ b, (∃ t, s.texts[b]? = some (t, true)) ↔ ∃ n ∈ s.nodes, n.key = some b) ∧
      ∀ (i j : Nat) (n n' : Node), s.nodes[i]? = some n → s.nodes[j]? = some n' → n.key = n'.key → i = j := by
  obtain ⟨s, a, h1, h2⟩ := run_spec Inv.init hs
  refine ⟨s, h1, ?_, ?_⟩
  · intro b
    have h3 := h2.own b
    constructor
    · rintro ⟨t, ht⟩
      have h4 : alive s.texts b = true := by simp [alive, ht]
      rw [h4] at h3
      have h5 : 0 < s.nodes.countP (owns b) := by simp [h3]
      obtain ⟨n, hn, hp⟩ := List.countP_pos_iff.1 h5
      exact ⟨n, hn, by simpa [owns] using hp⟩
    · rintro ⟨n, hn, hk⟩
      obtain ⟨j, hj⟩ := List.getElem?_of_mem hn
      exact alive_get (h2.aliveKey hj hk)
  · intro i j n n' hi hj hk
    apply Classical.byContradiction
    intro hne
    have hlt := (List.getElem?_eq_some_iff.1 hi).1
    obtain ⟨m, hm, b, f, hkb, _⟩ := Fun.f2_get h2.rel (v := i) (List.getElem?_eq_getElem (by rw [← f2_len h2.rel]; exact hlt))
    rw [hi] at hm
    cases hm
    have h3 := h2.own b
    have h4 := Fun.countP_setv (owns b) hi ⟨none, none, 0⟩
    have h5 : (s.nodes.set i ⟨none, none, 0⟩)[j]? = some n' := by rw [List.getElem?_set_ne hne]; exact hj
    have h6 : 0 < (s.nodes.set i ⟨none, none, 0⟩).countP (owns b) := Fun.countP_pos h5 (by simp [owns, ← hk, hkb])
    have h7 : owns b n = true := by simp [owns, hkb]
    have h8 : owns b ⟨none, none, 0⟩ = false := by simp [owns]
    have h9 : (alive s.texts b).toNat ≤ 1 := by cases alive s.texts b <;> simp
    rw [h7, h8] at h4
    simp only [Bool.toNat_true, Bool.toNat_false] at h4
    omega

/-- Three names, the first removed (the last takes its place), the second added again. -/
example : (run State.init [.add (lit "ab") none, .add (lit "c") none, .add (lit "def") none, .remove (some 0), .add (lit "c") (some 1)] >>=
    fun s => Res.ok (s.nodes.map (fun n => (readView s n.name, n.cmd)))) = .ok [(.ok (lit "def"), 2), (.ok (lit "c"), 3)] := by
  decide +kernel

/-! ## C63 -/

namespace Names

theorem refName_spec {s : State} {l : List Row} {adds : Nat} (h : Inv s l adds) {j : Nat} {r : Row} (hj : l[j]? = some r) :
    refName s ⟨s.block, j⟩ = .ok r.1 := by
  obtain ⟨n, hn, b, f, hk, ht, hname, hcmd⟩ := Fun.f2_get h.rel hj
  obtain ⟨x, hx⟩ := alive_get (h.aliveKey hn hk)
  rw [ht] at hx
  simp only [Option.some.injEq, Prod.mk.injEq] at hx
  simp only [refName, deref, if_true, hn, Res.bind_ok, readView, hname, ht, hx.2, Nat.le_refl, List.take_length]

theorem refName_out {s : State} {l : List Row} {adds : Nat} (h : Inv s l adds) {j : Nat} (hj : l.length ≤ j) :
    refName s ⟨s.block, j⟩ = .ub .deadObject := by
  have : s.nodes[j]? = none := by
    rw [List.getElem?_eq_none]
    rw [f2_len h.rel]
    exact hj
  simp only [refName, deref, if_true, this]
  rfl

/-- When does a call move the nodes? -/
theorem step_block {s s' : State} {op : Op} (h : step s op = .ok s') :
    s'.block = match op with
      | .add _ none => if s.nodes.length + 1 > s.cap then s.block + 1 else s.block
      | _ => s.block := by
  cases op with
  | add name found =>
    cases found with
    | none =>
      simp only [step, alloc] at h
      obtain ⟨s1, h1, h⟩ := Res.bind_eq_ok.1 h
      obtain ⟨v, hv, h⟩ := Res.bind_eq_ok.1 h
      cases h
      simp only [growForPush] at h1
      split at h1
      · rename_i hc
        obtain ⟨t, ht, h1⟩ := Res.bind_eq_ok.1 h1
        cases h1
        simp [hc]
      · rename_i hc
        cases h1
        simp [hc]
    | some i =>
      simp only [step, alloc] at h
      obtain ⟨n, hn, h⟩ := Res.bind_eq_ok.1 h
      obtain ⟨t, ht, h⟩ := Res.bind_eq_ok.1 h
      obtain ⟨v, hv, h⟩ := Res.bind_eq_ok.1 h
      cases h
      rfl
  | remove found =>
    cases found with
    | none => cases h; rfl
    | some i =>
      simp only [step] at h
      obtain ⟨n, hn, h⟩ := Res.bind_eq_ok.1 h
      obtain ⟨t, ht, h⟩ := Res.bind_eq_ok.1 h
      obtain ⟨v, hv, h⟩ := Res.bind_eq_ok.1 h
      cases h
      rfl
  | clear =>
    simp only [step] at h
    obtain ⟨t, ht, h⟩ := Res.bind_eq_ok.1 h
    cases h
    rfl

end Names

/-- What a reference to the command at position `j` of `l` reads as after a call, if there was room for another command or not. -/
def Spec.refAfter (room : Bool) (l : List Row) (j : Nat) : Op → Res Bytes
  | .add _ none => if room then Res.ok ((l[j]?.map Prod.fst).getD []) else .ub .useAfterFree
  | .add _ (some _) => .ok ((l[j]?.map Prod.fst).getD [])
  | .remove none => .ok ((l[j]?.map Prod.fst).getD [])
  | .remove (some i) =>
    if j = l.length - 1 then .ub .deadObject
    else if j = i then .ok ((l[l.length - 1]?.map Prod.fst).getD [])
    else .ok ((l[j]?.map Prod.fst).getD [])
  | .clear => .ub .deadObject

/-- **C63, partial: the exact effect of a call on references to commands.** Adding a new name with room left, or a known name, keeps all
references; adding a new name without room invalidates all; removing a command invalidates references to the last command and makes those to the
removed one refer to the last one; others are kept; `clear` invalidates all. -/
theorem C63_references_partial (ops : List Op) (op : Op) {l l' : List Row} (hs : rowsRun 0 [] ops = some l) (adds : Nat)
    (hadds : adds = (ops.map isAdd).sum) (hs' : rows adds l op = some l') {j : Nat} (hj : j < l.length) :
    ∃ s s', run State.init ops = .ok s ∧ step s op = .ok s' ∧
      (∀ r, l[j]? = some r → refName s ⟨s.block, j⟩ = .ok r.1) ∧
      refName s' ⟨s.block, j⟩ = Spec.refAfter (decide (s.nodes.length < s.cap)) l j op := by
  have run_adds : ∀ (ops : List Op) (s s' : State) (l l' : List Row) (a : Nat), Inv s l a → rowsRun a l ops = some l' →
      run s ops = .ok s' → Inv s' l' (a + (ops.map isAdd).sum) := by
    intro ops
    induction ops with
    | nil =>
      intro s s' l l' a h h1 h2
      simp only [rowsRun, Option.some.injEq] at h1
      cases h2
      subst h1
      simpa using h
    | cons op ops ih =>
      intro s s' l l' a h h1 h2
      simp only [rowsRun, Option.bind_eq_some_iff] at h1
      obtain ⟨l1, h3, h4⟩ := h1
      obtain ⟨s1, h5, h6⟩ := Res.bind_eq_ok.1 h2
      obtain ⟨s1', h7, h8⟩ := step_spec h h3
      rw [h5] at h7
      cases h7
      have := ih s1 s' l1 l' _ h8 h4 h6
      simpa [Nat.add_assoc] using this
  obtain ⟨s, a, h1, h2⟩ := run_spec Inv.init hs
  have hinv := run_adds ops _ s [] l 0 Inv.init hs h1
  rw [Nat.zero_add, ← hadds] at hinv
  obtain ⟨s', h3, h4⟩ := step_spec hinv hs'
  refine ⟨s, s', h1, h3, fun r hr => refName_spec hinv hr, ?_⟩
  have hb := step_block h3
  have hg : l[j]? = some l[j] := List.getElem?_eq_getElem hj
  have hlen := f2_len hinv.rel
  cases op with
  | add name found =>
    cases found with
    | none =>
      simp only [rows, Option.some.injEq] at hs'
      subst hs'
      simp only [Spec.refAfter]
      by_cases hc : s.nodes.length + 1 > s.cap
      · have : decide (s.nodes.length < s.cap) = false := by simp; omega
        rw [this]
        simp only [hc, if_true] at hb
        have hne : ¬ s.block = s'.block := by omega
        simp only [refName, deref, hne, if_false, Bool.false_eq_true]
        rfl
      · have : decide (s.nodes.length < s.cap) = true := by simp; omega
        rw [this]
        simp only [hc, if_false] at hb
        rw [← hb, refName_spec h4 (r := l[j]) (by rw [List.getElem?_append_left hj, hg])]
        simp [hg]
    | some i =>
      simp only [rows, Option.map_eq_some_iff] at hs'
      obtain ⟨r, hr, rfl⟩ := hs'
      simp only at hb
      simp only [Spec.refAfter, hg, Option.map_some, Option.getD_some]
      rw [← hb]
      by_cases hji : i = j
      · subst hji
        rw [hg] at hr
        cases hr
        rw [refName_spec h4 (r := (l[i].1, adds)) (by simp [hj])]
      · rw [refName_spec h4 (r := l[j]) (by rw [List.getElem?_set_ne hji, hg])]
  | remove found =>
    cases found with
    | none =>
      simp only [rows, Option.some.injEq] at hs'
      subst hs'
      simp only at hb
      simp only [Spec.refAfter, hg, Option.map_some, Option.getD_some]
      rw [← hb, refName_spec h4 hg]
    | some i =>
      simp only [rows] at hs'
      split at hs'
      · rename_i hi
        cases hs'
        simp only at hb
        have hlast : l[l.length - 1]? = some l[l.length - 1] := List.getElem?_eq_getElem (by omega)
        have hsr : swapRemove l i = (l.set i l[l.length - 1]).dropLast := by
          simp [swapRemove, List.getLast?_eq_getElem?, hlast]
        rw [hsr] at h4
        rw [← hb]
        simp only [Spec.refAfter]
        by_cases hjl : j = l.length - 1
        · rw [if_pos hjl, refName_out h4 (by simp; omega)]
        · rw [if_neg hjl]
          have hd : (l.set i l[l.length - 1]).dropLast[j]? = (l.set i l[l.length - 1])[j]? := by
            rw [List.getElem?_dropLast, if_pos (by simp; omega)]
          by_cases hji : j = i
          · rw [if_pos hji, hlast]
            rw [refName_spec h4 (r := l[l.length - 1]) (by rw [hd, List.getElem?_set, if_pos hji.symm, if_pos hi])]
            rfl
          · rw [if_neg hji, hg]
            rw [refName_spec h4 (r := l[j]) (by rw [hd, List.getElem?_set_ne (by omega), hg])]
            rfl
      · simp at hs'
  | clear =>
    simp only [rows, Option.some.injEq] at hs'
    subst hs'
    simp only at hb
    simp only [Spec.refAfter]
    rw [← hb, refName_out h4 (by simp)]

/-- **C63, negation (adding).** The reference returned by the first `add` dangles after a second command is added. -/
theorem C63_reference_add_false :
    (run State.init [.add (lit "a") none] >>= fun s => run s [.add (lit "b") none] >>= fun s' => refName s' ⟨s.block, 0⟩) =
      .ub .useAfterFree := by
  decide +kernel

/-- **C63, negation (removing).** A reference to a command that is still registered dangles after another one is removed. -/
theorem C63_reference_remove_false :
    (run State.init [.add (lit "a") none, .add (lit "b") none] >>= fun s => run s [.remove (some 0)] >>= fun s' =>
      Res.ok (refName s ⟨s.block, 1⟩, s'.nodes.map (fun n => readView s' n.name), refName s' ⟨s.block, 1⟩)) =
      .ok (.ok (lit "b"), [.ok (lit "b")], .ub .deadObject) := by
  decide +kernel

/-- With three commands the fourth needs a new block, too. -/
example : (run State.init [.add (lit "a") none, .add (lit "b") none, .add (lit "c") none] >>= fun s =>
    Res.ok (s.block, s.cap)) = .ok (3, 3) := by decide +kernel

end Coil
