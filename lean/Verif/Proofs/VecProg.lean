import Verif.Proofs.Vector

/-! # Programs with several vectors -/

namespace Coil
open Spec Mem
namespace Vec

variable {α : Type}

/-- The invariant of programs: every live variable owns its block, blocks are not shared, no block is leaked, and
constructions minus destructions is the number of elements (and of objects that were lost, `leak`). -/
structure Inv (sz : Nat) (s : State α) (e : Seqs α) (leak : Nat := 0) : Prop where
  len : s.vars.length = e.length
  own : ∀ (v : Nat) buf, s.vars[v]? = some (some buf) → ∃ l, e[v]? = some (some l) ∧ Owns sz s.mem buf l
  dead : ∀ v : Nat, s.vars[v]? = some none → e[v]? = some none
  dist : ∀ (v w : Nat) bv bw b, s.vars[v]? = some (some bv) → s.vars[w]? = some (some bw) → bv.ptr = some b →
    bw.ptr = some b → v = w
  live : ∀ (b : Nat) c, s.mem.heap[b]? = some (some c) → ∃ (v : Nat) (buf : Buf), s.vars[v]? = some (some buf) ∧ buf.ptr = some b
  count : s.mem.ctors = s.mem.dtors + total e + leak

theorem total_set {e : Seqs α} {v : Nat} {o o' : Option (List α)} (h : e[v]? = some o) :
    total (e.set v o') + (o.getD []).length = total e + (o'.getD []).length := by
  induction e generalizing v with
  | nil => simp at h
  | cons x e ih =>
    cases v with
    | zero =>
      simp only [List.getElem?_cons_zero, Option.some.injEq] at h
      subst h
      simp [total]
      omega
    | succ v =>
      simp only [List.getElem?_cons_succ] at h
      have := ih h
      simp [total] at *
      omega

theorem total_append (e e' : Seqs α) : total (e ++ e') = total e + total e' := by
  simp [total]

theorem get_setv {β : Type} {l : List β} {i : Nat} {a : β} (h : l[i]? = some a) (b : β) (j : Nat) :
    (l.set i b)[j]? = if j = i then some b else l[j]? := by
  have hl := (List.getElem?_eq_some_iff.1 h).1
  by_cases hj : j = i
  · subst hj
    simp [hl]
  · rw [if_neg hj, List.getElem?_set_ne (Ne.symm hj)]

theorem Owns.lt {sz : Nat} {m : Mem α} {buf : Buf} {l : List α} (h : Owns sz m buf l) {b : Nat} (hb : buf.ptr = some b) :
    b < m.heap.length := by
  rcases h with ⟨rfl, _⟩ | ⟨b', h1, h2, _⟩
  · simp [Buf.null] at hb
  · rw [h1] at hb
    cases hb
    exact (List.getElem?_eq_some_iff.1 h2).1

/-- Replacing the buffer of one variable; `lost` more objects are lost. -/
theorem Inv.replace {sz : Nat} {s : State α} {e : Seqs α} {leak : Nat} (h : Inv sz s e leak) {v : Nat} {buf buf' : Buf} {l l' : List α} {m' : Mem α}
    (hv : s.vars[v]? = some (some buf)) (he : e[v]? = some (some l)) (ho : Owns sz m' buf' l')
    (hf : Frame s.mem buf m' buf') {lost : Nat} (hb : Bal s.mem l.length m' (l'.length + lost)) :
    Inv sz ⟨m', s.vars.set v (some buf')⟩ (e.set v (some l')) (leak + lost) := by
  have hsep : ∀ (w : Nat) (bw : Buf) (b : Nat), w ≠ v → s.vars[w]? = some (some bw) → bw.ptr = some b →
      b < s.mem.heap.length ∧ buf.ptr ≠ some b ∧ buf'.ptr ≠ some b := by
    intro w bw b hw hbw hpb
    obtain ⟨lw, _, ow⟩ := h.own w bw hbw
    have h1 := Owns.lt ow hpb
    have h2 : buf.ptr ≠ some b := fun hx => hw (h.dist w v bw buf b hbw hv hpb hx)
    refine ⟨h1, h2, fun hx => ?_⟩
    rcases hf.fresh b hx with hy | hy
    · exact h2 hy
    · omega
  refine ⟨by simp [h.len], ?_, ?_, ?_, ?_, ?_⟩
  · intro w bw hw
    simp only at hw
    rw [get_setv hv] at hw
    rw [get_setv he]
    by_cases hwv : w = v
    · subst hwv
      simp at hw
      subst hw
      exact ⟨l', by simp, ho⟩
    · rw [if_neg hwv] at hw ⊢
      obtain ⟨lw, h1, h2⟩ := h.own w bw hw
      refine ⟨lw, h1, h2.frame ?_⟩
      intro b hpb
      obtain ⟨g1, g2, _⟩ := hsep w bw b hwv hw hpb
      exact hf.other b g1 g2
  · intro w hw
    simp only at hw
    rw [get_setv hv] at hw
    rw [get_setv he]
    by_cases hwv : w = v
    · rw [if_pos hwv] at hw
      simp at hw
    · rw [if_neg hwv] at hw ⊢
      exact h.dead w hw
  · intro w x bw bx b hw hx hpw hpx
    simp only at hw hx
    rw [get_setv hv] at hw hx
    by_cases hwv : w = v
    · rw [if_pos hwv] at hw
      simp at hw
      subst hw
      by_cases hxv : x = v
      · rw [hwv, hxv]
      · rw [if_neg hxv] at hx
        exact absurd hpw (hsep x bx b hxv hx hpx).2.2
    · rw [if_neg hwv] at hw
      by_cases hxv : x = v
      · rw [if_pos hxv] at hx
        simp at hx
        subst hx
        exact absurd hpx (hsep w bw b hwv hw hpw).2.2
      · rw [if_neg hxv] at hx
        exact h.dist w x bw bx b hw hx hpw hpx
  · intro b c hc
    rcases hf.live b c hc with hl | ⟨hl, hn⟩
    · exact ⟨v, buf', by simp only; rw [get_setv hv, if_pos rfl], hl⟩
    · simp only at hc
      rw [hf.other b hl hn] at hc
      obtain ⟨w, bw, h1, h2⟩ := h.live b c hc
      have hwv : w ≠ v := by
        rintro rfl
        rw [hv] at h1
        simp at h1
        subst h1
        exact hn h2
      exact ⟨w, bw, by simp only; rw [get_setv hv, if_neg hwv, h1], h2⟩
  · have := total_set (o' := some l') he
    have := h.count
    simp at *
    unfold Bal at hb
    omega

/-- Replacing the buffer of one variable. -/
theorem Inv.update {sz : Nat} {s : State α} {e : Seqs α} {leak : Nat} (h : Inv sz s e leak) {v : Nat} {buf buf' : Buf} {l l' : List α} {m' : Mem α}
    (hv : s.vars[v]? = some (some buf)) (he : e[v]? = some (some l)) (ho : Owns sz m' buf' l')
    (hf : Frame s.mem buf m' buf') (hb : Bal s.mem l.length m' l'.length) :
    Inv sz ⟨m', s.vars.set v (some buf')⟩ (e.set v (some l')) leak := h.replace hv he ho hf (lost := 0) hb

/-- A new empty variable. -/
theorem Inv.push {sz : Nat} {s : State α} {e : Seqs α} {leak : Nat} (h : Inv sz s e leak) :
    Inv sz ⟨s.mem, s.vars ++ [some Buf.null]⟩ (e ++ [some []]) leak := by
  have get : ∀ (v : Nat) (o : Option Buf), (s.vars ++ [some Buf.null])[v]? = some o →
      s.vars[v]? = some o ∨ (v = s.vars.length ∧ o = some Buf.null) := by
    intro v o hv
    by_cases hl : v < s.vars.length
    · rw [List.getElem?_append_left hl] at hv
      exact .inl hv
    · have hl' := (List.getElem?_eq_some_iff.1 hv).1
      simp at hl'
      have : v = s.vars.length := by omega
      subst this
      simp at hv
      exact .inr ⟨rfl, hv.symm⟩
  have lt : ∀ (v : Nat) (o : Option Buf), s.vars[v]? = some o → v < e.length := by
    intro v o hv
    rw [← h.len]
    exact (List.getElem?_eq_some_iff.1 hv).1
  refine ⟨by simp [h.len], ?_, ?_, ?_, ?_, ?_⟩
  · intro v buf hv
    rcases get v _ hv with h1 | ⟨rfl, h2⟩
    · obtain ⟨l, h3, h4⟩ := h.own v buf h1
      exact ⟨l, by rw [List.getElem?_append_left (lt v _ h1)]; exact h3, h4⟩
    · simp at h2
      subst h2
      exact ⟨[], by rw [h.len]; simp, .inl ⟨rfl, rfl⟩⟩
  · intro v hv
    rcases get v _ hv with h1 | ⟨rfl, h2⟩
    · rw [List.getElem?_append_left (lt v _ h1)]
      exact h.dead v h1
    · simp at h2
  · intro v w bv bw b hv hw hpv hpw
    rcases get v _ hv with h1 | ⟨rfl, h2⟩
    · rcases get w _ hw with h1' | ⟨rfl, h2'⟩
      · exact h.dist v w bv bw b h1 h1' hpv hpw
      · simp at h2'
        subst h2'
        simp [Buf.null] at hpw
    · simp at h2
      subst h2
      simp [Buf.null] at hpv
  · intro b c hc
    obtain ⟨v, buf, h1, h2⟩ := h.live b c hc
    have hl := (List.getElem?_eq_some_iff.1 h1).1
    exact ⟨v, buf, by simp only; rw [List.getElem?_append_left hl]; exact h1, h2⟩
  · have := h.count
    simp only
    rw [total_append]
    simpa [total] using this

/-- Creating a variable with a new buffer. -/
theorem Inv.pushWith {sz : Nat} {s : State α} {e : Seqs α} {leak : Nat} (h : Inv sz s e leak) {buf' : Buf} {l' : List α} {m' : Mem α}
    (ho : Owns sz m' buf' l') (hf : Frame s.mem Buf.null m' buf') (hb : Bal s.mem 0 m' l'.length) :
    Inv sz ⟨m', s.vars ++ [some buf']⟩ (e ++ [some l']) leak := by
  have h1 := h.push.update (v := s.vars.length) (buf := Buf.null) (l := []) (by simp) (by rw [h.len]; simp) ho hf hb
  have e1 : (s.vars ++ [some Buf.null]).set s.vars.length (some buf') = s.vars ++ [some buf'] := by
    rw [List.set_append_right _ _ (Nat.le_refl _)]
    simp
  have e2 : (e ++ [some []]).set s.vars.length (some l') = e ++ [some l'] := by
    rw [h.len, List.set_append_right _ _ (Nat.le_refl _)]
    simp
  simp only [e1, e2] at h1
  exact h1

/-- Swapping the buffers of two variables. -/
theorem Inv.swap {sz : Nat} {s : State α} {e : Seqs α} {leak : Nat} (h : Inv sz s e leak) {x y : Nat} {bx bY : Buf} {lx ly : List α}
    (hx : s.vars[x]? = some (some bx)) (hy : s.vars[y]? = some (some bY)) (ex : e[x]? = some (some lx))
    (ey : e[y]? = some (some ly)) :
    Inv sz ⟨s.mem, (s.vars.set x (some bY)).set y (some bx)⟩ ((e.set x (some ly)).set y (some lx)) leak := by
  have hy1 : (s.vars.set x (some bY))[y]? = some (if y = x then some bY else some bY) := by
    rw [get_setv hx]
    split
    · simp
    · simp [hy]
  have ey1 : ∃ o, (e.set x (some ly))[y]? = some (some o) := by
    rw [get_setv ex]
    split
    · exact ⟨_, rfl⟩
    · exact ⟨_, ey⟩
  obtain ⟨oy, ey1⟩ := ey1
  -- reading the result
  have gv : ∀ w : Nat, ((s.vars.set x (some bY)).set y (some bx))[w]? =
      if w = y then some (some bx) else if w = x then some (some bY) else s.vars[w]? := by
    intro w
    rw [get_setv hy1, get_setv hx]
  have ge : ∀ w : Nat, ((e.set x (some ly)).set y (some lx))[w]? =
      if w = y then some (some lx) else if w = x then some (some ly) else e[w]? := by
    intro w
    rw [get_setv ey1, get_setv ex]
  -- every variable holds what its partner held
  let π : Nat → Nat := fun w => if w = y then x else if w = x then y else w
  have πv : ∀ w, ((s.vars.set x (some bY)).set y (some bx))[w]? = s.vars[π w]? := by
    intro w
    rw [gv]
    simp only [π]
    by_cases h1 : w = y
    · simp [h1, hx]
    · by_cases h2 : w = x
      · simp only [h2, if_true]
        by_cases h3 : x = y
        · rw [if_pos h3, if_pos h3, hx]
        · rw [if_neg h3, if_neg h3, hy]
      · simp [h1, h2]
  have πe : ∀ w, ((e.set x (some ly)).set y (some lx))[w]? = e[π w]? := by
    intro w
    rw [ge]
    simp only [π]
    by_cases h1 : w = y
    · simp [h1, ex]
    · by_cases h2 : w = x
      · simp only [h2, if_true]
        by_cases h3 : x = y
        · rw [if_pos h3, if_pos h3, ex]
        · rw [if_neg h3, if_neg h3, ey]
      · simp [h1, h2]
  have πinv : ∀ w, π (π w) = w := by
    intro w
    simp only [π]
    by_cases h1 : w = y
    · simp only [h1, if_true]
      by_cases h3 : x = y
      · simp [h3]
      · simp [h3]
    · by_cases h2 : w = x
      · simp only [h2, if_true]
        by_cases h3 : x = y
        · simp [h3]
        · simp [h3]
      · simp [h1, h2]
  refine ⟨by simp [h.len], ?_, ?_, ?_, ?_, ?_⟩
  · intro w bw hw
    simp only at hw
    rw [πv] at hw
    rw [πe]
    exact h.own _ bw hw
  · intro w hw
    simp only at hw
    rw [πv] at hw
    rw [πe]
    exact h.dead _ hw
  · intro v w bv bw b hv hw hpv hpw
    simp only at hv hw
    rw [πv] at hv hw
    have := h.dist _ _ bv bw b hv hw hpv hpw
    rw [← πinv v, this, πinv]
  · intro b c hc
    obtain ⟨v, buf, h1, h2⟩ := h.live b c hc
    exact ⟨π v, buf, by simp only; rw [πv, πinv]; exact h1, h2⟩
  · have t1 := total_set (o' := some ly) ex
    have t2 := total_set (o' := some lx) ey1
    have := h.count
    simp only [Option.getD_some] at t1 t2
    have hoy : oy = ly := by
      rw [get_setv ex] at ey1
      split at ey1
      · simp at ey1; exact ey1.symm
      · rw [ey] at ey1; simp at ey1; exact ey1.symm
    subst hoy
    simp only
    omega

/-- Ending the life of a variable whose buffer is already released. -/
theorem Inv.kill {sz : Nat} {s : State α} {e : Seqs α} {leak : Nat} (h : Inv sz s e leak) {v : Nat}
    (hv : s.vars[v]? = some (some Buf.null)) (he : e[v]? = some (some [])) :
    Inv sz ⟨s.mem, s.vars.set v none⟩ (e.set v none) leak := by
  refine ⟨by simp [h.len], ?_, ?_, ?_, ?_, ?_⟩
  · intro w bw hw
    simp only at hw
    rw [get_setv hv] at hw
    rw [get_setv he]
    split at hw
    · simp at hw
    · rename_i hne
      rw [if_neg hne]
      exact h.own w bw hw
  · intro w hw
    simp only at hw
    rw [get_setv hv] at hw
    rw [get_setv he]
    split at hw
    · rename_i heq
      rw [if_pos heq]
    · rename_i hne
      rw [if_neg hne]
      exact h.dead w hw
  · intro x w bx bw b hx hw hpx hpw
    simp only at hx hw
    rw [get_setv hv] at hx hw
    split at hx
    · simp at hx
    · split at hw
      · simp at hw
      · exact h.dist x w bx bw b hx hw hpx hpw
  · intro b c hc
    obtain ⟨w, buf, h1, h2⟩ := h.live b c hc
    refine ⟨w, buf, ?_, h2⟩
    simp only
    rw [get_setv hv, if_neg, h1]
    rintro rfl
    rw [hv] at h1
    simp at h1
    subst h1
    simp [Buf.null] at h2
  · have t1 := total_set (o' := none) he
    have := h.count
    simp at *
    omega

theorem Inv.destroyVar {sz : Nat} {s : State α} {e : Seqs α} {leak : Nat} (h : Inv sz s e leak) {v : Nat} {buf : Buf} {l : List α}
    (hv : s.vars[v]? = some (some buf)) (he : e[v]? = some (some l)) :
    ∃ m', destroy s.mem buf = .ok m' ∧ Inv sz ⟨m', s.vars.set v none⟩ (e.set v none) leak := by
  obtain ⟨l', he', ho⟩ := h.own v buf hv
  rw [he] at he'
  cases he'
  obtain ⟨m', h1, h2, h3⟩ := destroy_spec ho
  refine ⟨m', h1, ?_⟩
  have h4 := h.update (l' := []) hv he (.inl ⟨rfl, rfl⟩) h2 h3
  have h5 := h4.kill (v := v) (by simp only; rw [get_setv hv, if_pos rfl]) (by rw [get_setv he, if_pos rfl])
  simpa using h5

/-- Leaving the scope of a destroyed variable. -/
theorem Inv.pop {sz : Nat} {m : Mem α} {vs : List (Option Buf)} {e : Seqs α}
    {leak : Nat} (h : Inv sz ⟨m, vs ++ [none]⟩ (e ++ [none]) leak) : Inv sz ⟨m, vs⟩ e leak := by
  have hl : vs.length = e.length := by
    have := h.len
    simpa using this
  have get : ∀ (v : Nat) (o : Option Buf), vs[v]? = some o → (vs ++ [none])[v]? = some o := by
    intro v o hv
    rw [List.getElem?_append_left (List.getElem?_eq_some_iff.1 hv).1]
    exact hv
  have gete : ∀ (v : Nat) (ob : Option Buf) (o : Option (List α)), vs[v]? = some ob → (e ++ [none])[v]? = some o → e[v]? = some o := by
    intro v ob o hv ho
    have := (List.getElem?_eq_some_iff.1 hv).1
    rwa [List.getElem?_append_left (by omega)] at ho
  refine ⟨hl, ?_, ?_, ?_, ?_, ?_⟩
  · intro v buf hv
    obtain ⟨l, h1, h2⟩ := h.own v buf (get v _ hv)
    exact ⟨l, gete v _ _ hv h1, h2⟩
  · intro v hv
    exact gete v _ _ hv (h.dead v (get v _ hv))
  · intro v w bv bw b hv hw
    exact h.dist v w bv bw b (get v _ hv) (get w _ hw)
  · intro b c hc
    obtain ⟨v, buf, h1, h2⟩ := h.live b c hc
    simp only at h1
    by_cases hv : v < vs.length
    · rw [List.getElem?_append_left hv] at h1
      exact ⟨v, buf, h1, h2⟩
    · have := (List.getElem?_eq_some_iff.1 h1).1
      simp at this
      have : v = vs.length := by omega
      subst this
      simp at h1
  · have := h.count
    rw [total_append] at this
    simpa [total] using this

theorem Inv.getVar {sz : Nat} {s : State α} {e : Seqs α} {leak : Nat} (h : Inv sz s e leak) {v : Nat} {l : List α}
    (hv : seqOf e v = some l) :
    ∃ buf, Vec.getVar s.vars v = .ok buf ∧ s.vars[v]? = some (some buf) ∧ e[v]? = some (some l) ∧ Owns sz s.mem buf l := by
  have he : e[v]? = some (some l) := by
    unfold seqOf at hv
    cases h' : e[v]? with
    | none => rw [h'] at hv; simp at hv
    | some o => rw [h'] at hv; simp at hv; rw [hv]
  have hlt : v < s.vars.length := by
    rw [h.len]
    exact (List.getElem?_eq_some_iff.1 he).1
  cases hx : s.vars[v]'hlt with
  | none =>
    have hx' : s.vars[v]? = some none := by simp [hlt, hx]
    rw [h.dead v hx'] at he
    simp at he
  | some buf =>
    have hx' : s.vars[v]? = some (some buf) := by simp [hlt, hx]
    obtain ⟨l', h1, h2⟩ := h.own v buf hx'
    rw [he] at h1
    cases h1
    exact ⟨buf, by simp [Vec.getVar, hx'], hx', he, h2⟩

theorem onVar_spec {sz : Nat} {s : State α} {e : Seqs α} {leak : Nat} (h : Inv sz s e leak) {v : Nat} {l l' : List α}
    (hv : seqOf e v = some l) {f : Mem α → Buf → Res (Mem α × Buf)}
    (hf : ∀ buf, Owns sz s.mem buf l → ∃ m' buf', Does sz (f s.mem buf) s.mem buf l l' m' buf') :
    ∃ s', onVar s v f = .ok s' ∧ Inv sz s' (e.set v (some l')) leak := by
  obtain ⟨buf, h1, h2, h3, h4⟩ := h.getVar hv
  obtain ⟨m', buf', g1, g2, g3, g4⟩ := hf buf h4
  exact ⟨_, by simp only [onVar, h1, g1, Res.bind_ok], h.update h2 h3 g2 g3 g4⟩

theorem step_spec {sz : Nat} (hsz : 0 < sz) {moved : α → α} {dflt : α} {s : State α} {e e' : Seqs α} {leak : Nat} (h : Inv sz s e leak)
    {op : Op α} (hf : Fits sz e op) (hs : seqStep dflt e op = some e') :
    ∃ s', step sz moved dflt s op = .ok s' ∧ Inv sz s' e' leak := by
  cases op with
  | create n =>
    simp only [seqStep, Option.some.injEq] at hs
    subst hs
    obtain ⟨m', buf', ⟨_, g2, g3, g4⟩, _, g5, _⟩ := newBuf_does hsz s.mem hf
    exact ⟨⟨m', s.vars ++ [some buf']⟩, by simp only [step, g5], h.pushWith g2 g3 g4⟩
  | ofRange xs =>
    simp only [seqStep, Option.some.injEq] at hs
    subst hs
    obtain ⟨m', buf', ⟨g1, g2, g3, g4⟩⟩ := ofRange_spec hsz s.mem hf
    exact ⟨_, by simp only [step, g1, Res.bind_ok], h.pushWith g2 g3 g4⟩
  | copyNew src =>
    simp only [seqStep, Option.map_eq_some_iff] at hs
    obtain ⟨l, h1, rfl⟩ := hs
    obtain ⟨buf, h2, h3, h4, h5⟩ := h.getVar h1
    obtain ⟨m', buf', ⟨g1, g2, g3, g4⟩⟩ := copyNew_spec hsz h5
    exact ⟨_, by simp only [step, h2, g1, Res.bind_ok], h.pushWith g2 g3 g4⟩
  | moveNew src =>
    simp only [seqStep, Option.map_eq_some_iff] at hs
    obtain ⟨l, h1, rfl⟩ := hs
    obtain ⟨buf, h2, h3, h4, h5⟩ := h.getVar h1
    refine ⟨_, by simp only [step, h2, Res.bind_ok]; rfl, ?_⟩
    have hlt := (List.getElem?_eq_some_iff.1 h3).1
    have hlte := (List.getElem?_eq_some_iff.1 h4).1
    have hs := h.push.swap (x := src) (y := s.vars.length) (bx := buf) (bY := Buf.null) (lx := l) (ly := [])
      (by simp only; rw [List.getElem?_append_left hlt]; exact h3) (by simp)
      (by rw [List.getElem?_append_left hlte]; exact h4) (by rw [h.len]; simp)
    have e1 : ((s.vars ++ [some Buf.null]).set src (some Buf.null)).set s.vars.length (some buf) =
        s.vars.set src (some Buf.null) ++ [some buf] := by
      rw [List.set_append_left _ _ hlt, List.set_append_right _ _ (by simp)]
      simp
    have e2 : ((e ++ [some []]).set src (some [])).set s.vars.length (some l) = e.set src (some []) ++ [some l] := by
      rw [List.set_append_left _ _ hlte, h.len, List.set_append_right _ _ (by simp)]
      simp
    simp only [e1, e2] at hs
    exact hs
  | copyAssign dst src =>
    simp only [seqStep, Option.bind_eq_some_iff, Option.map_eq_some_iff] at hs
    obtain ⟨l, h1, old, h1', rfl⟩ := hs
    obtain ⟨sb, h2, h3, h4, h5⟩ := h.getVar h1
    obtain ⟨db, k2, k3, k4, k5⟩ := h.getVar h1'
    obtain ⟨m', tmp, ⟨g1, g2, g3, g4⟩⟩ := copyNew_spec hsz h5
    have hp := h.pushWith g2 g3 g4
    have hlt := (List.getElem?_eq_some_iff.1 k3).1
    have hlte := (List.getElem?_eq_some_iff.1 k4).1
    have hs := hp.swap (x := dst) (y := s.vars.length) (bx := db) (bY := tmp) (lx := old) (ly := l)
      (by simp only; rw [List.getElem?_append_left hlt]; exact k3) (by simp)
      (by rw [List.getElem?_append_left hlte]; exact k4) (by rw [h.len]; simp)
    have e1 : ((s.vars ++ [some tmp]).set dst (some tmp)).set s.vars.length (some db) =
        s.vars.set dst (some tmp) ++ [some db] := by
      rw [List.set_append_left _ _ hlt, List.set_append_right _ _ (by simp)]
      simp
    have e2 : ((e ++ [some l]).set dst (some l)).set s.vars.length (some old) = e.set dst (some l) ++ [some old] := by
      rw [List.set_append_left _ _ hlte, h.len, List.set_append_right _ _ (by simp)]
      simp
    simp only [e1, e2] at hs
    obtain ⟨m'', d1, d2⟩ := hs.destroyVar (v := s.vars.length) (buf := db) (l := old)
      (by simp only; rw [List.getElem?_append_right (by simp)]; simp)
      (by rw [h.len, List.getElem?_append_right (by simp)]; simp)
    refine ⟨⟨m'', s.vars.set dst (some tmp)⟩, ?_, ?_⟩
    · simp only [step, h2, k2, g1, Res.bind_ok]
      simp only at d1
      simp only [d1, Res.bind_ok]
    · have e3 : (s.vars.set dst (some tmp) ++ [some db]).set s.vars.length none = s.vars.set dst (some tmp) ++ [none] := by
        rw [List.set_append_right _ _ (by simp)]
        simp
      have e4 : (e.set dst (some l) ++ [some old]).set s.vars.length none = e.set dst (some l) ++ [none] := by
        rw [h.len, List.set_append_right _ _ (by simp)]
        simp
      simp only [e3, e4] at d2
      exact d2.pop
  | moveAssign dst src =>
    simp only [seqStep, Option.bind_eq_some_iff, Option.map_eq_some_iff] at hs
    obtain ⟨l, h1, old, h1', rfl⟩ := hs
    obtain ⟨sb, h2, h3, h4, h5⟩ := h.getVar h1
    obtain ⟨db, k2, k3, k4, k5⟩ := h.getVar h1'
    exact ⟨_, by simp only [step, h2, k2, Res.bind_ok], h.swap h3 k3 h4 k4⟩
  | reserve v n =>
    simp only [seqStep, Option.map_eq_some_iff] at hs
    obtain ⟨l, h1, rfl⟩ := hs
    obtain ⟨s', g1, g2⟩ := onVar_spec h h1 (l' := l) (f := fun m b => reserve sz moved m b n) (fun buf hb => by
      obtain ⟨m', buf', hd, _⟩ := reserve_spec hsz (moved := moved) hb hf
      exact ⟨m', buf', hd⟩)
    refine ⟨s', g1, ?_⟩
    obtain ⟨_, _, _, h4, _⟩ := h.getVar h1
    have : e.set v (some l) = e := by
      apply List.ext_getElem?
      intro j
      rw [get_setv h4]
      split
      · rename_i hj; rw [hj, h4]
      · rfl
    rwa [this] at g2
  | resize v n =>
    simp only [seqStep, Option.map_eq_some_iff] at hs
    obtain ⟨l, h1, rfl⟩ := hs
    exact onVar_spec h h1 (l' := resized dflt n l) (f := fun m b => resize sz moved dflt m b n)
      (fun buf hb => resize_spec hsz hb hf)
  | pushBack v x =>
    simp only [seqStep, Option.map_eq_some_iff] at hs
    obtain ⟨l, h1, rfl⟩ := hs
    exact onVar_spec h h1 (l' := l ++ [x]) (f := fun m b => pushBack sz moved m b x)
      (fun buf hb => pushBack_spec hsz hb (hf l h1))
  | popBack v =>
    simp only [seqStep, Option.bind_eq_some_iff] at hs
    obtain ⟨l, h1, h2⟩ := hs
    split at h2
    · simp at h2
    · rename_i hne
      simp at h2
      subst h2
      exact onVar_spec h h1 (fun buf hb => popBack_spec hb hne)
  | clear v =>
    simp only [seqStep, Option.map_eq_some_iff] at hs
    obtain ⟨l, h1, rfl⟩ := hs
    exact onVar_spec h h1 (fun buf hb => by
      obtain ⟨m', buf', hd, _⟩ := clear_spec hb
      exact ⟨m', buf', hd⟩)
  | write v i x =>
    simp only [seqStep, Option.bind_eq_some_iff] at hs
    obtain ⟨l, h1, h2⟩ := hs
    split at h2
    · rename_i hi
      simp at h2
      subst h2
      exact onVar_spec h h1 (l' := l.set i x) (f := fun m b => do let m' ← writeElem m b i x; .ok (m', b))
        (fun buf hb => write_spec hb hi)
    · simp at h2
  | destroy v =>
    simp only [seqStep, Option.map_eq_some_iff] at hs
    obtain ⟨l, h1, rfl⟩ := hs
    obtain ⟨buf, h2, h3, h4, h5⟩ := h.getVar h1
    obtain ⟨m', g1, g2⟩ := h.destroyVar h3 h4
    exact ⟨_, by simp only [step, h2, g1, Res.bind_ok], g2⟩

theorem run_spec {sz : Nat} (hsz : 0 < sz) {moved : α → α} {dflt : α} {s : State α} {e e' : Seqs α} {leak : Nat} (h : Inv sz s e leak)
    {ops : List (Op α)} (hf : FitsAll sz dflt e ops) (hs : seqRun dflt e ops = some e') :
    ∃ s', run sz moved dflt s ops = .ok s' ∧ Inv sz s' e' leak := by
  induction ops generalizing s e with
  | nil =>
    simp only [seqRun, Option.some.injEq] at hs
    subst hs
    exact ⟨s, rfl, h⟩
  | cons op ops ih =>
    simp only [seqRun, Option.bind_eq_some_iff] at hs
    obtain ⟨e1, h1, h2⟩ := hs
    obtain ⟨s1, g1, g2⟩ := step_spec hsz (moved := moved) h hf.1 h1
    obtain ⟨s', k1, k2⟩ := ih g2 (hf.2 e1 h1) h2
    exact ⟨s', by simp only [run, g1, Res.bind_ok, k1], k2⟩

/-! ## Violated preconditions -/

theorem popBack_empty {sz : Nat} {m : Mem α} {buf : Buf} (h : Owns sz m buf []) : ∃ u, popBack m buf = .ub u := by
  rcases h with ⟨rfl, _⟩ | ⟨b, h1, h2, h3, _⟩
  · exact ⟨_, rfl⟩
  · exact ⟨.oobRead, by simp only [popBack, destructLast, deref, h1, Res.bind_ok, cells_ok h2]; simp [h3]⟩

theorem write_outside {sz : Nat} {m : Mem α} {buf : Buf} {l : List α} (h : Owns sz m buf l) {i : Nat} (hi : ¬ i < l.length) (x : α) :
    ∃ u, writeElem m buf i x = .ub u := by
  rcases h with ⟨rfl, _⟩ | ⟨b, h1, h2, h3, _⟩
  · exact ⟨_, rfl⟩
  · simp only [writeElem, deref, h1, Res.bind_ok, cells_ok h2]
    rw [List.getElem?_append_right (by simp; omega), List.getElem?_replicate]
    by_cases hr : i - (l.map some).length < buf.cap - l.length
    · rw [if_pos hr]
      exact ⟨_, rfl⟩
    · rw [if_neg hr]
      exact ⟨_, rfl⟩

theorem Inv.getDead {sz : Nat} {s : State α} {e : Seqs α} {leak : Nat} (h : Inv sz s e leak) {v : Nat} (hv : seqOf e v = none) :
    Vec.getVar s.vars v = .ub .deadObject := by
  unfold Vec.getVar
  cases hx : s.vars[v]? with
  | none => rfl
  | some o =>
    cases o with
    | none => rfl
    | some buf =>
      obtain ⟨l, h1, _⟩ := h.own v buf hx
      simp [seqOf, h1] at hv

theorem step_misuse {sz : Nat} (hsz : 0 < sz) {moved : α → α} {dflt : α} {s : State α} {e : Seqs α} {leak : Nat} (h : Inv sz s e leak)
    {op : Op α} (hs : seqStep dflt e op = none) : ∃ u, step sz moved dflt s op = .ub u := by
  have dead : ∀ v (f : Mem α → Buf → Res (Mem α × Buf)), seqOf e v = none → ∃ u, onVar s v f = .ub u :=
    fun v f hv => ⟨.deadObject, by rw [onVar, h.getDead hv]; rfl⟩
  cases op with
  | create n => simp [seqStep] at hs
  | ofRange xs => simp [seqStep] at hs
  | copyNew src => exact ⟨.deadObject, by rw [step, h.getDead (by simpa [seqStep] using hs)]; rfl⟩
  | moveNew src => exact ⟨.deadObject, by rw [step, h.getDead (by simpa [seqStep] using hs)]; rfl⟩
  | copyAssign dst src =>
    cases h1 : seqOf e src with
    | none => exact ⟨.deadObject, by rw [step, h.getDead h1]; rfl⟩
    | some l =>
      simp only [seqStep, h1, Option.bind_some, Option.map_eq_none_iff] at hs
      obtain ⟨sb, h2, _, _, h5⟩ := h.getVar h1
      obtain ⟨m', tmp, ⟨g1, _, _, _⟩⟩ := copyNew_spec hsz h5
      exact ⟨.deadObject, by simp only [step, h2, g1, Res.bind_ok, h.getDead hs]; rfl⟩
  | moveAssign dst src =>
    cases h1 : seqOf e src with
    | none => exact ⟨.deadObject, by rw [step, h.getDead h1]; rfl⟩
    | some l =>
      simp only [seqStep, h1, Option.bind_some, Option.map_eq_none_iff] at hs
      obtain ⟨sb, h2, _, _, h5⟩ := h.getVar h1
      exact ⟨.deadObject, by simp only [step, h2, Res.bind_ok, h.getDead hs]; rfl⟩
  | reserve v n => simp only [step]; exact dead v _ (by simpa [seqStep] using hs)
  | resize v n => simp only [step]; exact dead v _ (by simpa [seqStep] using hs)
  | pushBack v x => simp only [step]; exact dead v _ (by simpa [seqStep] using hs)
  | clear v => simp only [step]; exact dead v _ (by simpa [seqStep] using hs)
  | popBack v =>
    cases h1 : seqOf e v with
    | none => simp only [step]; exact dead v _ h1
    | some l =>
      simp only [seqStep, h1, Option.bind_some] at hs
      split at hs
      · rename_i h0
        subst h0
        obtain ⟨buf, h2, _, _, h5⟩ := h.getVar h1
        obtain ⟨u, h6⟩ := popBack_empty h5
        exact ⟨u, by simp only [step, onVar, h2, h6, Res.bind_ok]; rfl⟩
      · cases hs
  | write v i x =>
    cases h1 : seqOf e v with
    | none => simp only [step]; exact dead v _ h1
    | some l =>
      simp only [seqStep, h1, Option.bind_some] at hs
      split at hs
      · cases hs
      · rename_i h0
        obtain ⟨buf, h2, _, _, h5⟩ := h.getVar h1
        obtain ⟨u, h6⟩ := write_outside h5 h0 x
        exact ⟨u, by simp only [step, onVar, h2, h6, Res.bind_ok]; rfl⟩
  | destroy v => exact ⟨.deadObject, by rw [step, h.getDead (by simpa [seqStep] using hs)]; rfl⟩

theorem run_misuse {sz : Nat} (hsz : 0 < sz) {moved : α → α} {dflt : α} {s : State α} {e : Seqs α} {leak : Nat} (h : Inv sz s e leak)
    {ops : List (Op α)} (hf : FitsAll sz dflt e ops) (hs : seqRun dflt e ops = none) : ∃ u, run sz moved dflt s ops = .ub u := by
  induction ops generalizing s e with
  | nil => simp [seqRun] at hs
  | cons op ops ih =>
    cases h1 : seqStep dflt e op with
    | none =>
      obtain ⟨u, h2⟩ := step_misuse hsz (moved := moved) h h1
      exact ⟨u, by rw [run, h2]; rfl⟩
    | some e1 =>
      simp only [seqRun, h1, Option.bind_some] at hs
      obtain ⟨s1, g1, g2⟩ := step_spec hsz (moved := moved) h hf.1 h1
      obtain ⟨u, k⟩ := ih g2 (hf.2 e1 h1) hs
      exact ⟨u, by simp only [run, g1, Res.bind_ok, k]⟩

theorem Inv.init (sz : Nat) : Inv sz (⟨Mem.empty, []⟩ : State α) [] := by
  refine ⟨rfl, ?_, ?_, ?_, ?_, rfl⟩
  · intro v buf hv; simp at hv
  · intro v hv; simp at hv
  · intro v w bv bw b hv; simp at hv
  · intro b c hc; simp [Mem.empty] at hc

end Vec
end Coil
