import Verif.Proofs.Str

/-! # Programs with several strings -/

namespace Coil
namespace Str
open Spec Mem
open Vec (Frame get_setv)

/-- The invariant of programs: every live variable owns its block, blocks are not shared and no block is leaked. -/
structure SInv (s : State) (e : Texts) : Prop where
  len : s.vars.length = e.length
  own : ∀ (v : Nat) buf, s.vars[v]? = some (some buf) → ∃ l, e[v]? = some (some l) ∧ SOwns s.mem buf l
  dead : ∀ v : Nat, s.vars[v]? = some none → e[v]? = some none
  dist : ∀ (v w : Nat) bv bw b, s.vars[v]? = some (some bv) → s.vars[w]? = some (some bw) → bv.ptr = some b →
    bw.ptr = some b → v = w
  live : ∀ (b : Nat) c, s.mem.heap[b]? = some (some c) → ∃ (v : Nat) (buf : Buf), s.vars[v]? = some (some buf) ∧ buf.ptr = some b

/-- Replacing the buffer of one variable. -/
theorem SInv.update {s : State} {e : Texts} (h : SInv s e) {v : Nat} {buf buf' : Buf} {l l' : Text} {m' : Mem UInt8}
    (hv : s.vars[v]? = some (some buf)) (he : e[v]? = some (some l)) (ho : SOwns m' buf' l')
    (hf : Frame s.mem buf m' buf') :
    SInv ⟨m', s.vars.set v (some buf')⟩ (e.set v (some l')) := by
  have hsep : ∀ (w : Nat) (bw : Buf) (b : Nat), w ≠ v → s.vars[w]? = some (some bw) → bw.ptr = some b →
      b < s.mem.heap.length ∧ buf.ptr ≠ some b ∧ buf'.ptr ≠ some b := by
    intro w bw b hw hbw hpb
    obtain ⟨lw, _, ow⟩ := h.own w bw hbw
    have h1 := SOwns.lt ow hpb
    have h2 : buf.ptr ≠ some b := fun hx => hw (h.dist w v bw buf b hbw hv hpb hx)
    refine ⟨h1, h2, fun hx => ?_⟩
    rcases hf.fresh b hx with hy | hy
    · exact h2 hy
    · omega
  refine ⟨by simp [h.len], ?_, ?_, ?_, ?_⟩
  · intro w bw hw
    simp only at hw
    rw [get_setv hv] at hw
    rw [get_setv he]
    by_cases hwv : w = v
    · subst hwv
      simp at hw
      subst hw
      exact ⟨l', by simp, ho⟩
    · rw [if_neg hwv] at hw ⊢
      obtain ⟨lw, h1, h2⟩ := h.own w bw hw
      refine ⟨lw, h1, h2.frame ?_⟩
      intro b hpb
      obtain ⟨g1, g2, _⟩ := hsep w bw b hwv hw hpb
      exact hf.other b g1 g2
  · intro w hw
    simp only at hw
    rw [get_setv hv] at hw
    rw [get_setv he]
    by_cases hwv : w = v
    · rw [if_pos hwv] at hw
      simp at hw
    · rw [if_neg hwv] at hw ⊢
      exact h.dead w hw
  · intro w x bw bx b hw hx hpw hpx
    simp only at hw hx
    rw [get_setv hv] at hw hx
    by_cases hwv : w = v
    · rw [if_pos hwv] at hw
      simp at hw
      subst hw
      by_cases hxv : x = v
      · rw [hwv, hxv]
      · rw [if_neg hxv] at hx
        exact absurd hpw (hsep x bx b hxv hx hpx).2.2
    · rw [if_neg hwv] at hw
      by_cases hxv : x = v
      · rw [if_pos hxv] at hx
        simp at hx
        subst hx
        exact absurd hpx (hsep w bw b hwv hw hpw).2.2
      · rw [if_neg hxv] at hx
        exact h.dist w x bw bx b hw hx hpw hpx
  · intro b c hc
    rcases hf.live b c hc with hl | ⟨hl, hn⟩
    · exact ⟨v, buf', by simp only; rw [get_setv hv, if_pos rfl], hl⟩
    · simp only at hc
      rw [hf.other b hl hn] at hc
      obtain ⟨w, bw, h1, h2⟩ := h.live b c hc
      have hwv : w ≠ v := by
        rintro rfl
        rw [hv] at h1
        simp at h1
        subst h1
        exact hn h2
      exact ⟨w, bw, by simp only; rw [get_setv hv, if_neg hwv, h1], h2⟩

/-- A new empty variable. -/
theorem SInv.push {s : State} {e : Texts} (h : SInv s e) :
    SInv ⟨s.mem, s.vars ++ [some Buf.null]⟩ (e ++ [some []]) := by
  have get : ∀ (v : Nat) (o : Option Buf), (s.vars ++ [some Buf.null])[v]? = some o →
      s.vars[v]? = some o ∨ (v = s.vars.length ∧ o = some Buf.null) := by
    intro v o hv
    by_cases hl : v < s.vars.length
    · rw [List.getElem?_append_left hl] at hv
      exact .inl hv
    · have hl' := (List.getElem?_eq_some_iff.1 hv).1
      simp at hl'
      have : v = s.vars.length := by omega
      subst this
      simp at hv
      exact .inr ⟨rfl, hv.symm⟩
  have lt : ∀ (v : Nat) (o : Option Buf), s.vars[v]? = some o → v < e.length := by
    intro v o hv
    rw [← h.len]
    exact (List.getElem?_eq_some_iff.1 hv).1
  refine ⟨by simp [h.len], ?_, ?_, ?_, ?_⟩
  · intro v buf hv
    rcases get v _ hv with h1 | ⟨rfl, h2⟩
    · obtain ⟨l, h3, h4⟩ := h.own v buf h1
      exact ⟨l, by rw [List.getElem?_append_left (lt v _ h1)]; exact h3, h4⟩
    · simp at h2
      subst h2
      exact ⟨[], by rw [h.len]; simp, .inl ⟨rfl, rfl⟩⟩
  · intro v hv
    rcases get v _ hv with h1 | ⟨rfl, h2⟩
    · rw [List.getElem?_append_left (lt v _ h1)]
      exact h.dead v h1
    · simp at h2
  · intro v w bv bw b hv hw hpv hpw
    rcases get v _ hv with h1 | ⟨rfl, h2⟩
    · rcases get w _ hw with h1' | ⟨rfl, h2'⟩
      · exact h.dist v w bv bw b h1 h1' hpv hpw
      · simp at h2'
        subst h2'
        simp [Buf.null] at hpw
    · simp at h2
      subst h2
      simp [Buf.null] at hpv
  · intro b c hc
    obtain ⟨v, buf, h1, h2⟩ := h.live b c hc
    have hl := (List.getElem?_eq_some_iff.1 h1).1
    exact ⟨v, buf, by simp only; rw [List.getElem?_append_left hl]; exact h1, h2⟩

/-- Creating a variable with a new buffer. -/
theorem SInv.pushWith {s : State} {e : Texts} (h : SInv s e) {buf' : Buf} {l' : Text} {m' : Mem UInt8}
    (ho : SOwns m' buf' l') (hf : Frame s.mem Buf.null m' buf') :
    SInv ⟨m', s.vars ++ [some buf']⟩ (e ++ [some l']) := by
  have h1 := h.push.update (v := s.vars.length) (buf := Buf.null) (l := []) (by simp) (by rw [h.len]; simp) ho hf
  have e1 : (s.vars ++ [some Buf.null]).set s.vars.length (some buf') = s.vars ++ [some buf'] := by
    rw [List.set_append_right _ _ (Nat.le_refl _)]
    simp
  have e2 : (e ++ [some []]).set s.vars.length (some l') = e ++ [some l'] := by
    rw [h.len, List.set_append_right _ _ (Nat.le_refl _)]
    simp
  simp only [e1, e2] at h1
  exact h1

/-- Swapping the buffers of two variables. -/
theorem SInv.swap {s : State} {e : Texts} (h : SInv s e) {x y : Nat} {bx bY : Buf} {lx ly : Text}
    (hx : s.vars[x]? = some (some bx)) (hy : s.vars[y]? = some (some bY)) (ex : e[x]? = some (some lx))
    (ey : e[y]? = some (some ly)) :
    SInv ⟨s.mem, (s.vars.set x (some bY)).set y (some bx)⟩ ((e.set x (some ly)).set y (some lx)) := by
  have hy1 : (s.vars.set x (some bY))[y]? = some (if y = x then some bY else some bY) := by
    rw [get_setv hx]
    split
    · simp
    · simp [hy]
  have ey1 : ∃ o, (e.set x (some ly))[y]? = some (some o) := by
    rw [get_setv ex]
    split
    · exact ⟨_, rfl⟩
    · exact ⟨_, ey⟩
  obtain ⟨oy, ey1⟩ := ey1
  -- reading the result
  have gv : ∀ w : Nat, ((s.vars.set x (some bY)).set y (some bx))[w]? =
      if w = y then some (some bx) else if w = x then some (some bY) else s.vars[w]? := by
    intro w
    rw [get_setv hy1, get_setv hx]
  have ge : ∀ w : Nat, ((e.set x (some ly)).set y (some lx))[w]? =
      if w = y then some (some lx) else if w = x then some (some ly) else e[w]? := by
    intro w
    rw [get_setv ey1, get_setv ex]
  -- every variable holds what its partner held
  let π : Nat → Nat := fun w => if w = y then x else if w = x then y else w
  have πv : ∀ w, ((s.vars.set x (some bY)).set y (some bx))[w]? = s.vars[π w]? := by
    intro w
    rw [gv]
    simp only [π]
    by_cases h1 : w = y
    · simp [h1, hx]
    · by_cases h2 : w = x
      · simp only [h2, if_true]
        by_cases h3 : x = y
        · rw [if_pos h3, if_pos h3, hx]
        · rw [if_neg h3, if_neg h3, hy]
      · simp [h1, h2]
  have πe : ∀ w, ((e.set x (some ly)).set y (some lx))[w]? = e[π w]? := by
    intro w
    rw [ge]
    simp only [π]
    by_cases h1 : w = y
    · simp [h1, ex]
    · by_cases h2 : w = x
      · simp only [h2, if_true]
        by_cases h3 : x = y
        · rw [if_pos h3, if_pos h3, ex]
        · rw [if_neg h3, if_neg h3, ey]
      · simp [h1, h2]
  have πinv : ∀ w, π (π w) = w := by
    intro w
    simp only [π]
    by_cases h1 : w = y
    · simp only [h1, if_true]
      by_cases h3 : x = y
      · simp [h3]
      · simp [h3]
    · by_cases h2 : w = x
      · simp only [h2, if_true]
        by_cases h3 : x = y
        · simp [h3]
        · simp [h3]
      · simp [h1, h2]
  refine ⟨by simp [h.len], ?_, ?_, ?_, ?_⟩
  · intro w bw hw
    simp only at hw
    rw [πv] at hw
    rw [πe]
    exact h.own _ bw hw
  · intro w hw
    simp only at hw
    rw [πv] at hw
    rw [πe]
    exact h.dead _ hw
  · intro v w bv bw b hv hw hpv hpw
    simp only at hv hw
    rw [πv] at hv hw
    have := h.dist _ _ bv bw b hv hw hpv hpw
    rw [← πinv v, this, πinv]
  · intro b c hc
    obtain ⟨v, buf, h1, h2⟩ := h.live b c hc
    exact ⟨π v, buf, by simp only; rw [πv, πinv]; exact h1, h2⟩

/-- Ending the life of a variable whose buffer is already released. -/
theorem SInv.kill {s : State} {e : Texts} (h : SInv s e) {v : Nat}
    (hv : s.vars[v]? = some (some Buf.null)) (he : e[v]? = some (some [])) :
    SInv ⟨s.mem, s.vars.set v none⟩ (e.set v none) := by
  refine ⟨by simp [h.len], ?_, ?_, ?_, ?_⟩
  · intro w bw hw
    simp only at hw
    rw [get_setv hv] at hw
    rw [get_setv he]
    split at hw
    · simp at hw
    · rename_i hne
      rw [if_neg hne]
      exact h.own w bw hw
  · intro w hw
    simp only at hw
    rw [get_setv hv] at hw
    rw [get_setv he]
    split at hw
    · rename_i heq
      rw [if_pos heq]
    · rename_i hne
      rw [if_neg hne]
      exact h.dead w hw
  · intro x w bx bw b hx hw hpx hpw
    simp only at hx hw
    rw [get_setv hv] at hx hw
    split at hx
    · simp at hx
    · split at hw
      · simp at hw
      · exact h.dist x w bx bw b hx hw hpx hpw
  · intro b c hc
    obtain ⟨w, buf, h1, h2⟩ := h.live b c hc
    refine ⟨w, buf, ?_, h2⟩
    simp only
    rw [get_setv hv, if_neg, h1]
    rintro rfl
    rw [hv] at h1
    simp at h1
    subst h1
    simp [Buf.null] at h2

theorem SInv.destroyVar {s : State} {e : Texts} (h : SInv s e) {v : Nat} {buf : Buf} {l : Text}
    (hv : s.vars[v]? = some (some buf)) (he : e[v]? = some (some l)) :
    ∃ m', freeBuf s.mem buf = .ok m' ∧ SInv ⟨m', s.vars.set v none⟩ (e.set v none) := by
  obtain ⟨l', he', ho⟩ := h.own v buf hv
  rw [he] at he'
  cases he'
  obtain ⟨m', h1, h2⟩ := Str.destroy_spec ho
  refine ⟨m', h1, ?_⟩
  have h4 := h.update (l' := []) hv he (.inl ⟨rfl, rfl⟩) h2
  have h5 := h4.kill (v := v) (by simp only; rw [get_setv hv, if_pos rfl]) (by rw [get_setv he, if_pos rfl])
  simpa using h5

/-- Leaving the scope of a destroyed variable. -/
theorem SInv.pop {m : Mem UInt8} {vs : List (Option Buf)} {e : Texts}
    (h : SInv ⟨m, vs ++ [none]⟩ (e ++ [none])) : SInv ⟨m, vs⟩ e := by
  have hl : vs.length = e.length := by
    have := h.len
    simpa using this
  have get : ∀ (v : Nat) (o : Option Buf), vs[v]? = some o → (vs ++ [none])[v]? = some o := by
    intro v o hv
    rw [List.getElem?_append_left (List.getElem?_eq_some_iff.1 hv).1]
    exact hv
  have gete : ∀ (v : Nat) (ob : Option Buf) (o : Option (Text)), vs[v]? = some ob → (e ++ [none])[v]? = some o → e[v]? = some o := by
    intro v ob o hv ho
    have := (List.getElem?_eq_some_iff.1 hv).1
    rwa [List.getElem?_append_left (by omega)] at ho
  refine ⟨hl, ?_, ?_, ?_, ?_⟩
  · intro v buf hv
    obtain ⟨l, h1, h2⟩ := h.own v buf (get v _ hv)
    exact ⟨l, gete v _ _ hv h1, h2⟩
  · intro v hv
    exact gete v _ _ hv (h.dead v (get v _ hv))
  · intro v w bv bw b hv hw
    exact h.dist v w bv bw b (get v _ hv) (get w _ hw)
  · intro b c hc
    obtain ⟨v, buf, h1, h2⟩ := h.live b c hc
    simp only at h1
    by_cases hv : v < vs.length
    · rw [List.getElem?_append_left hv] at h1
      exact ⟨v, buf, h1, h2⟩
    · have := (List.getElem?_eq_some_iff.1 h1).1
      simp at this
      have : v = vs.length := by omega
      subst this
      simp at h1

theorem SInv.getVar {s : State} {e : Texts} (h : SInv s e) {v : Nat} {l : Text}
    (hv : textOf e v = some l) :
    ∃ buf, Vec.getVar s.vars v = .ok buf ∧ s.vars[v]? = some (some buf) ∧ e[v]? = some (some l) ∧ SOwns s.mem buf l := by
  have he : e[v]? = some (some l) := by
    unfold textOf at hv
    cases h' : e[v]? with
    | none => rw [h'] at hv; simp at hv
    | some o => rw [h'] at hv; simp at hv; rw [hv]
  have hlt : v < s.vars.length := by
    rw [h.len]
    exact (List.getElem?_eq_some_iff.1 he).1
  cases hx : s.vars[v]'hlt with
  | none =>
    have hx' : s.vars[v]? = some none := by simp [hlt, hx]
    rw [h.dead v hx'] at he
    simp at he
  | some buf =>
    have hx' : s.vars[v]? = some (some buf) := by simp [hlt, hx]
    obtain ⟨l', h1, h2⟩ := h.own v buf hx'
    rw [he] at h1
    cases h1
    exact ⟨buf, by simp [Vec.getVar, hx'], hx', he, h2⟩

/-- Every string has been given a size (and so has a terminator). -/
def Sized (s : State) : Prop := ∀ (v : Nat) buf, s.vars[v]? = some (some buf) → 0 < buf.size

theorem Sized.set {s : State} (h : Sized s) {v : Nat} {buf' : Buf} (hb : 0 < buf'.size) (m' : Mem UInt8) :
    Sized ⟨m', s.vars.set v (some buf')⟩ := by
  intro w bw hw
  simp only at hw
  rw [List.getElem?_set] at hw
  split at hw
  · split at hw
    · simp at hw
      exact hw ▸ hb
    · simp at hw
  · exact h w bw hw

theorem Sized.push {s : State} (h : Sized s) {buf' : Buf} (hb : 0 < buf'.size) (m' : Mem UInt8) :
    Sized ⟨m', s.vars ++ [some buf']⟩ := by
  intro w bw hw
  simp only at hw
  rw [List.getElem?_append] at hw
  split at hw
  · exact h w bw hw
  · have := (List.getElem?_eq_some_iff.1 hw).1
    simp at this
    rw [this] at hw
    simp at hw
    exact hw ▸ hb

theorem onVar_spec {s : State} {e : Texts} (h : SInv s e) {v : Nat} {l l' : Text}
    (hv : textOf e v = some l) {f : Mem UInt8 → Buf → Res (Mem UInt8 × Buf)}
    (hf : ∀ buf, s.vars[v]? = some (some buf) → SOwns s.mem buf l → ∃ m' buf', Does (f s.mem buf) s.mem buf l' m' buf') :
    ∃ s', onVar s v f = .ok s' ∧ SInv s' (e.set v (some l')) ∧ (Sized s → Sized s') := by
  obtain ⟨buf, h1, h2, h3, h4⟩ := h.getVar hv
  obtain ⟨m', buf', g1, g2, g3, g4⟩ := hf buf h2 h4
  exact ⟨_, by simp only [onVar, h1, g1, Res.bind_ok], h.update h2 h3 g2 g3, fun hs => hs.set (g4 (hs v buf h2)) m'⟩

/-- When appending part of a string to itself, there is room already. -/
def Room (s : State) (e : Texts) : Op → Prop
  | .appendPart v src _ len => v = src → ∀ buf l, s.vars[v]? = some (some buf) → e[v]? = some (some l) → l.length + len < buf.cap
  | _ => True

theorem Room.of_not_self {s : State} {e : Texts} {op : Op} (h : ¬ SelfAppend op) : Room s e op := by
  cases op <;> try trivial
  intro hv
  exact absurd hv h

theorem step_spec {s : State} {e e' : Texts} (h : SInv s e) {op : Op} (hf : TextFits e op) (hr : Room s e op)
    (hs : textStep e op = some e') : ∃ s', step s op = .ok s' ∧ SInv s' e' ∧ (¬ Moves op → Sized s → Sized s') := by
  cases op with
  | ofBytes xs =>
    simp only [textStep, Option.some.injEq] at hs
    subst hs
    have hx : xs.length + 1 < 2 ^ 64 := hf
    obtain ⟨m', buf', hd, hp⟩ := append_ext (m := s.mem) (buf := Buf.null) (l := []) (.inl ⟨rfl, rfl⟩) (xs := xs) (by simpa using hx)
    have hq : ofSrc s.mem (.ext xs) = .ok (m', buf') := by
      rw [ofSrc_append _ _ (by simp only [Src.len]; omega)]
      exact hd.eq
    exact ⟨⟨m', s.vars ++ [some buf']⟩, by simp only [step, hq, Res.bind_ok], by simpa using h.pushWith hd.owns hd.frame,
      fun _ hz => hz.push hp m'⟩
  | ofPart src off len =>
    simp only [textStep, Option.bind_eq_some_iff, Option.map_eq_some_iff] at hs
    obtain ⟨k, h1, p, hp, rfl⟩ := hs
    obtain ⟨sb, h2, h3, h4, h5⟩ := h.getVar h1
    have hk : off + len ≤ k.length := by
      unfold part at hp
      split at hp
      · assumption
      · simp at hp
    have hcap : k.length + 1 < 2 ^ 64 ∨ k = [] := by
      rcases h5 with ⟨_, rfl⟩ | ⟨b, c, g1, g2, g3, g4, g5, g6, g7, _⟩
      · exact .inr rfl
      · exact .inl (by omega)
    have hlen : len + 1 < 2 ^ 64 := by
      rcases hcap with hc | rfl
      · omega
      · simp at hk
        omega
    obtain ⟨m', buf', hd, hpos⟩ := append_other (m := s.mem) (buf := Buf.null) (l := []) (.inl ⟨rfl, rfl⟩) h5
      (by simp [Buf.null]) hp (by simpa using hlen)
    have hq : ofSrc s.mem (view sb off len) = .ok (m', buf') := by
      rw [ofSrc_append _ _ (by rw [h5.view_len hk]; omega)]
      exact hd.eq
    exact ⟨⟨m', s.vars ++ [some buf']⟩, by simp only [step, h2, hq, Res.bind_ok], by simpa using h.pushWith hd.owns hd.frame,
      fun _ hz => hz.push hpos m'⟩
  | copyNew src =>
    simp only [textStep, Option.map_eq_some_iff] at hs
    obtain ⟨l, h1, rfl⟩ := hs
    obtain ⟨buf, h2, h3, h4, h5⟩ := h.getVar h1
    obtain ⟨m', buf', ⟨g1, g2, g3, g4⟩, g5⟩ := copyNew_spec h5
    exact ⟨⟨m', s.vars ++ [some buf']⟩, by simp only [step, h2, g1, Res.bind_ok], h.pushWith g2 g3, fun _ hz => hz.push (g5 ▸ hz src buf h3) m'⟩
  | moveNew src =>
    simp only [textStep, Option.map_eq_some_iff] at hs
    obtain ⟨l, h1, rfl⟩ := hs
    obtain ⟨buf, h2, h3, h4, h5⟩ := h.getVar h1
    refine ⟨_, by simp only [step, h2, Res.bind_ok]; rfl, ?_, fun hm => absurd trivial hm⟩
    have hlt := (List.getElem?_eq_some_iff.1 h3).1
    have hlte := (List.getElem?_eq_some_iff.1 h4).1
    have hs := h.push.swap (x := src) (y := s.vars.length) (bx := buf) (bY := Buf.null) (lx := l) (ly := [])
      (by simp only; rw [List.getElem?_append_left hlt]; exact h3) (by simp)
      (by rw [List.getElem?_append_left hlte]; exact h4) (by rw [h.len]; simp)
    have e1 : ((s.vars ++ [some Buf.null]).set src (some Buf.null)).set s.vars.length (some buf) =
        s.vars.set src (some Buf.null) ++ [some buf] := by
      rw [List.set_append_left _ _ hlt, List.set_append_right _ _ (by simp)]
      simp
    have e2 : ((e ++ [some []]).set src (some [])).set s.vars.length (some l) = e.set src (some []) ++ [some l] := by
      rw [List.set_append_left _ _ hlte, h.len, List.set_append_right _ _ (by simp)]
      simp
    simp only [e1, e2] at hs
    exact hs
  | copyAssign dst src =>
    simp only [textStep, Option.bind_eq_some_iff, Option.map_eq_some_iff] at hs
    obtain ⟨l, h1, old, h1', rfl⟩ := hs
    obtain ⟨sb, h2, h3, h4, h5⟩ := h.getVar h1
    obtain ⟨db, k2, k3, k4, k5⟩ := h.getVar h1'
    obtain ⟨m', tmp, ⟨g1, g2, g3, g4⟩, g5⟩ := copyNew_spec h5
    have hp := h.pushWith g2 g3
    have hlt := (List.getElem?_eq_some_iff.1 k3).1
    have hlte := (List.getElem?_eq_some_iff.1 k4).1
    have hs := hp.swap (x := dst) (y := s.vars.length) (bx := db) (bY := tmp) (lx := old) (ly := l)
      (by simp only; rw [List.getElem?_append_left hlt]; exact k3) (by simp)
      (by rw [List.getElem?_append_left hlte]; exact k4) (by rw [h.len]; simp)
    have e1 : ((s.vars ++ [some tmp]).set dst (some tmp)).set s.vars.length (some db) =
        s.vars.set dst (some tmp) ++ [some db] := by
      rw [List.set_append_left _ _ hlt, List.set_append_right _ _ (by simp)]
      simp
    have e2 : ((e ++ [some l]).set dst (some l)).set s.vars.length (some old) = e.set dst (some l) ++ [some old] := by
      rw [List.set_append_left _ _ hlte, h.len, List.set_append_right _ _ (by simp)]
      simp
    simp only [e1, e2] at hs
    obtain ⟨m'', d1, d2⟩ := hs.destroyVar (v := s.vars.length) (buf := db) (l := old)
      (by simp only; rw [List.getElem?_append_right (by simp)]; simp)
      (by rw [h.len, List.getElem?_append_right (by simp)]; simp)
    refine ⟨⟨m'', s.vars.set dst (some tmp)⟩, ?_, ?_, fun _ hz => hz.set (g5 ▸ hz src sb h3) m''⟩
    · simp only [step, h2, k2, g1, Res.bind_ok]
      simp only at d1
      simp only [d1, Res.bind_ok]
    · have e3 : (s.vars.set dst (some tmp) ++ [some db]).set s.vars.length none = s.vars.set dst (some tmp) ++ [none] := by
        rw [List.set_append_right _ _ (by simp)]
        simp
      have e4 : (e.set dst (some l) ++ [some old]).set s.vars.length none = e.set dst (some l) ++ [none] := by
        rw [h.len, List.set_append_right _ _ (by simp)]
        simp
      simp only [e3, e4] at d2
      exact d2.pop
  | moveAssign dst src =>
    simp only [textStep, Option.bind_eq_some_iff, Option.map_eq_some_iff] at hs
    obtain ⟨l, h1, old, h1', rfl⟩ := hs
    obtain ⟨sb, h2, h3, h4, h5⟩ := h.getVar h1
    obtain ⟨db, k2, k3, k4, k5⟩ := h.getVar h1'
    exact ⟨_, by simp only [step, h2, k2, Res.bind_ok], h.swap h3 k3 h4 k4, fun hm => absurd trivial hm⟩
  | reserve v n =>
    simp only [textStep, Option.map_eq_some_iff] at hs
    obtain ⟨l, h1, rfl⟩ := hs
    obtain ⟨s', g1, g2, g3⟩ := onVar_spec h h1 (l' := l) (f := fun m b => reserve m b n) (fun buf _ hb => by
      obtain ⟨m', buf', hd, _⟩ := reserve_spec hb hf
      exact ⟨m', buf', hd⟩)
    refine ⟨s', g1, ?_, fun _ => g3⟩
    obtain ⟨_, _, _, h4, _⟩ := h.getVar h1
    have : e.set v (some l) = e := by
      apply List.ext_getElem?
      intro j
      rw [get_setv h4]
      split
      · rename_i hj; rw [hj, h4]
      · rfl
    rwa [this] at g2
  | resize v n =>
    simp only [textStep, Option.map_eq_some_iff] at hs
    obtain ⟨l, h1, rfl⟩ := hs
    obtain ⟨s', g1, g2, g3⟩ := onVar_spec h h1 (f := fun m b => resize m b n) (fun buf _ hb => by
      obtain ⟨m', buf', hd, _⟩ := resize_spec hb hf
      exact ⟨m', buf', hd⟩)
    exact ⟨s', g1, g2, fun _ => g3⟩
  | append v xs =>
    simp only [textStep, Option.map_eq_some_iff] at hs
    obtain ⟨l, h1, rfl⟩ := hs
    obtain ⟨s', g1, g2, g3⟩ := onVar_spec h h1 (f := fun m b => append m b (.ext xs)) (fun buf _ hb => by
      obtain ⟨m', buf', hd, _⟩ := append_ext hb (hf l h1)
      exact ⟨m', buf', hd⟩)
    exact ⟨s', g1, g2, fun _ => g3⟩
  | appendPart v src off len =>
    simp only [textStep, Option.bind_eq_some_iff, Option.map_eq_some_iff] at hs
    obtain ⟨k, h1, p, hp, l, h1', rfl⟩ := hs
    obtain ⟨sb, h2, h3, h4, h5⟩ := h.getVar h1
    obtain ⟨s', g1, g2, g3⟩ := onVar_spec h h1' (l' := l ++ p) (f := fun m b => append m b (view sb off len)) (fun buf hv hb => by
      by_cases hvs : v = src
      · subst hvs
        rw [h3] at hv
        simp at hv
        subst hv
        have : k = l := by
          rw [h1] at h1'
          simpa using h1'
        subst this
        obtain ⟨m', buf', hd, _⟩ := append_self hb hp (hf k h1) (hr rfl sb k h3 h4)
        exact ⟨m', buf', hd⟩
      · obtain ⟨m', buf', hd, _⟩ := append_other hb h5
          (fun b hsb hbb => hvs (h.dist v src buf sb b hv h3 hbb hsb)) hp (hf l h1')
        exact ⟨m', buf', hd⟩)
    exact ⟨s', by simp only [step, h2, Res.bind_ok, g1], g2, fun _ => g3⟩
  | write v i x =>
    simp only [textStep, Option.bind_eq_some_iff] at hs
    obtain ⟨l, h1, h2⟩ := hs
    split at h2
    · rename_i hi
      simp at h2
      subst h2
      obtain ⟨s', g1, g2, g3⟩ := onVar_spec h h1 (l' := l.set i (some x)) (f := fun m b => do let m' ← poke m b i x; .ok (m', b))
        (fun buf _ hb => by
          obtain ⟨m', w1, w2, w3⟩ := write_spec hb hi x
          exact ⟨m', buf, by simp only [w1, Res.bind_ok], w2, w3, fun hz => hz⟩)
      exact ⟨s', g1, g2, fun _ => g3⟩
    · simp at h2
  | destroy v =>
    simp only [textStep, Option.map_eq_some_iff] at hs
    obtain ⟨l, h1, rfl⟩ := hs
    obtain ⟨buf, h2, h3, h4, h5⟩ := h.getVar h1
    obtain ⟨m', g1, g2⟩ := h.destroyVar h3 h4
    refine ⟨_, by simp only [step, h2, g1, Res.bind_ok], g2, ?_⟩
    intro _ hz w bw hw
    simp only at hw
    rw [get_setv h3] at hw
    split at hw
    · simp at hw
    · exact hz w bw hw

theorem run_spec {s : State} {e e' : Texts} (h : SInv s e) {ops : List Op} (hf : TextFitsAll e ops)
    (hn : ∀ op ∈ ops, ¬ SelfAppend op) (hs : textRun e ops = some e') :
    ∃ s', run s ops = .ok s' ∧ SInv s' e' ∧ ((∀ op ∈ ops, ¬ Moves op) → Sized s → Sized s') := by
  induction ops generalizing s e with
  | nil =>
    simp only [textRun, Option.some.injEq] at hs
    subst hs
    exact ⟨s, rfl, h, fun _ hz => hz⟩
  | cons op ops ih =>
    simp only [textRun, Option.bind_eq_some_iff] at hs
    obtain ⟨e1, h1, h2⟩ := hs
    obtain ⟨s1, g1, g2, g3⟩ := step_spec h hf.1 (Room.of_not_self (hn op (by simp))) h1
    obtain ⟨s', k1, k2, k3⟩ := ih g2 (hf.2 e1 h1) (fun o ho => hn o (by simp [ho])) h2
    exact ⟨s', by simp only [run, g1, Res.bind_ok, k1], k2,
      fun hm hz => k3 (fun o ho => hm o (by simp [ho])) (g3 (hm op (by simp)) hz)⟩

theorem SInv.init : SInv (⟨Mem.empty, []⟩ : State) [] := by
  refine ⟨rfl, ?_, ?_, ?_, ?_⟩
  · intro v buf hv; simp at hv
  · intro v hv; simp at hv
  · intro v w bv bw b hv; simp at hv
  · intro b c hc; simp [Mem.empty] at hc

/-- The blocks of other strings are not changed by an operation on one string. -/
theorem SInv.others {s : State} {e : Texts} (h : SInv s e) {v w : Nat} {buf bw buf' : Buf} {m' : Mem UInt8}
    (hv : s.vars[v]? = some (some buf)) (hf : Frame s.mem buf m' buf') (hw : s.vars[w]? = some (some bw)) (hne : w ≠ v)
    {b : Nat} (hb : bw.ptr = some b) : m'.heap[b]? = s.mem.heap[b]? := by
  obtain ⟨lw, _, ow⟩ := h.own w bw hw
  exact hf.other b (ow.lt hb) (fun hx => hne (h.dist w v bw buf b hw hv hb hx))

theorem SInv.news {s : State} {e : Texts} (h : SInv s e) {w : Nat} {bw buf' : Buf} {m' : Mem UInt8}
    (hf : Frame s.mem Buf.null m' buf') (hw : s.vars[w]? = some (some bw))
    {b : Nat} (hb : bw.ptr = some b) : m'.heap[b]? = s.mem.heap[b]? := by
  obtain ⟨lw, _, ow⟩ := h.own w bw hw
  exact hf.other b (ow.lt hb) (by simp [Buf.null])

theorem push_old {s : State} {w : Nat} {bw : Buf} (hw : s.vars[w]? = some (some bw)) (x : Option Buf) :
    (s.vars ++ [x])[w]? = some (some bw) := by
  rw [List.getElem?_append_left (List.getElem?_eq_some_iff.1 hw).1]
  exact hw

theorem set_old {vars : List (Option Buf)} {v w : Nat} {bw : Buf} (hw : vars[w]? = some (some bw)) (hne : w ≠ v) (x : Option Buf) :
    (vars.set v x)[w]? = some (some bw) := by
  rw [List.getElem?_set_ne (Ne.symm hne)]
  exact hw

/-- `s'` has the same string `w`, byte for byte, as `s`. -/
def Untouched (s s' : State) (w : Nat) (bw : Buf) : Prop :=
  s'.vars[w]? = some (some bw) ∧ ∀ b, bw.ptr = some b → s'.mem.heap[b]? = s.mem.heap[b]?

theorem onVar_frame {s : State} {e : Texts} (h : SInv s e) {v w : Nat} {l : Text} {bw : Buf}
    (hv : textOf e v = some l) {f : Mem UInt8 → Buf → Res (Mem UInt8 × Buf)}
    (hf : ∀ buf, s.vars[v]? = some (some buf) → SOwns s.mem buf l → ∃ m' buf' l', Does (f s.mem buf) s.mem buf l' m' buf')
    (hw : s.vars[w]? = some (some bw)) (hne : w ≠ v) {s' : State} (he : onVar s v f = .ok s') : Untouched s s' w bw := by
  obtain ⟨buf, h1, h2, h3, h4⟩ := h.getVar hv
  obtain ⟨m', buf', l', g1, g2, g3, g4⟩ := hf buf h2 h4
  simp only [onVar, h1, g1, Res.bind_ok, Res.ok.injEq] at he
  subst he
  exact ⟨set_old hw hne _, fun b hb => h.others h2 g3 hw hne hb⟩

theorem step_frame {s s' : State} {e e' : Texts} (h : SInv s e) {op : Op} (hf : TextFits e op) (hr : Room s e op)
    (hs : textStep e op = some e') (he : step s op = .ok s') {w : Nat} {bw : Buf} (hw : s.vars[w]? = some (some bw))
    (hc : ¬ Concerns w op) : Untouched s s' w bw := by
  cases op with
  | ofBytes xs =>
    have hx : xs.length + 1 < 2 ^ 64 := hf
    obtain ⟨m', buf', hd, hp⟩ := append_ext (m := s.mem) (buf := Buf.null) (l := []) (.inl ⟨rfl, rfl⟩) (xs := xs) (by simpa using hx)
    have hq : ofSrc s.mem (.ext xs) = .ok (m', buf') := by
      rw [ofSrc_append _ _ (by simp only [Src.len]; omega)]
      exact hd.eq
    simp only [step, hq, Res.bind_ok, Res.ok.injEq] at he
    subst he
    exact ⟨push_old hw _, fun b hb => h.news hd.frame hw hb⟩
  | ofPart src off len =>
    simp only [textStep, Option.bind_eq_some_iff, Option.map_eq_some_iff] at hs
    obtain ⟨k, h1, p, hp, rfl⟩ := hs
    obtain ⟨sb, h2, h3, h4, h5⟩ := h.getVar h1
    have hk : off + len ≤ k.length := by
      unfold part at hp
      split at hp
      · assumption
      · simp at hp
    have hlen : len + 1 < 2 ^ 64 := by
      rcases h5 with ⟨_, rfl⟩ | ⟨b, c, g1, g2, g3, g4, g5, g6, g7, _⟩
      · simp at hk
        omega
      · omega
    obtain ⟨m', buf', hd, hpos⟩ := append_other (m := s.mem) (buf := Buf.null) (l := []) (.inl ⟨rfl, rfl⟩) h5
      (by simp [Buf.null]) hp (by simpa using hlen)
    have hq : ofSrc s.mem (view sb off len) = .ok (m', buf') := by
      rw [ofSrc_append _ _ (by rw [h5.view_len hk]; omega)]
      exact hd.eq
    simp only [step, h2, hq, Res.bind_ok, Res.ok.injEq] at he
    subst he
    exact ⟨push_old hw _, fun b hb => h.news hd.frame hw hb⟩
  | copyNew src =>
    simp only [textStep, Option.map_eq_some_iff] at hs
    obtain ⟨l, h1, rfl⟩ := hs
    obtain ⟨buf, h2, h3, h4, h5⟩ := h.getVar h1
    obtain ⟨m', buf', ⟨g1, g2, g3, g4⟩, g5⟩ := copyNew_spec h5
    simp only [step, h2, g1, Res.bind_ok, Res.ok.injEq] at he
    subst he
    exact ⟨push_old hw _, fun b hb => h.news g3 hw hb⟩
  | moveNew src =>
    simp only [textStep, Option.map_eq_some_iff] at hs
    obtain ⟨l, h1, rfl⟩ := hs
    obtain ⟨buf, h2, h3, h4, h5⟩ := h.getVar h1
    simp only [step, h2, Res.bind_ok, Res.ok.injEq] at he
    subst he
    have := set_old hw hc (some Buf.null)
    exact ⟨push_old (s := ⟨s.mem, s.vars.set src (some Buf.null)⟩) this _, fun b hb => rfl⟩
  | copyAssign dst src =>
    simp only [textStep, Option.bind_eq_some_iff, Option.map_eq_some_iff] at hs
    obtain ⟨l, h1, old, h1', rfl⟩ := hs
    obtain ⟨sb, h2, h3, h4, h5⟩ := h.getVar h1
    obtain ⟨db, k2, k3, k4, k5⟩ := h.getVar h1'
    obtain ⟨m', tmp, ⟨g1, g2, g3, g4⟩, g5⟩ := copyNew_spec h5
    have ho : SOwns m' db old := k5.frame (fun b hb => h.news g3 k3 hb)
    obtain ⟨m'', d1, d2⟩ := Str.destroy_spec ho
    simp only [step, h2, k2, g1, d1, Res.bind_ok, Res.ok.injEq] at he
    subst he
    refine ⟨set_old hw hc _, fun b hb => ?_⟩
    obtain ⟨lw, _, ow⟩ := h.own w bw hw
    have hb1 := h.news g3 hw hb
    simp only
    rw [d2.other b (Nat.lt_of_lt_of_le (ow.lt hb) g3.mono) (fun hx => hc (h.dist w dst bw db b hw k3 hb hx)), hb1]
  | moveAssign dst src =>
    simp only [textStep, Option.bind_eq_some_iff, Option.map_eq_some_iff] at hs
    obtain ⟨l, h1, old, h1', rfl⟩ := hs
    obtain ⟨sb, h2, h3, h4, h5⟩ := h.getVar h1
    obtain ⟨db, k2, k3, k4, k5⟩ := h.getVar h1'
    simp only [step, h2, k2, Res.bind_ok, Res.ok.injEq] at he
    subst he
    simp only [Concerns, not_or] at hc
    exact ⟨set_old (set_old hw hc.2 _) hc.1 _, fun b hb => rfl⟩
  | reserve v n =>
    simp only [textStep, Option.map_eq_some_iff] at hs
    obtain ⟨l, h1, rfl⟩ := hs
    exact onVar_frame h h1 (f := fun m b => reserve m b n) (fun buf _ hb => by
      obtain ⟨m', buf', hd, _⟩ := reserve_spec hb hf
      exact ⟨m', buf', _, hd⟩) hw hc he
  | resize v n =>
    simp only [textStep, Option.map_eq_some_iff] at hs
    obtain ⟨l, h1, rfl⟩ := hs
    exact onVar_frame h h1 (f := fun m b => resize m b n) (fun buf _ hb => by
      obtain ⟨m', buf', hd, _⟩ := resize_spec hb hf
      exact ⟨m', buf', _, hd⟩) hw hc he
  | append v xs =>
    simp only [textStep, Option.map_eq_some_iff] at hs
    obtain ⟨l, h1, rfl⟩ := hs
    exact onVar_frame h h1 (f := fun m b => append m b (.ext xs)) (fun buf _ hb => by
      obtain ⟨m', buf', hd, _⟩ := append_ext hb (hf l h1)
      exact ⟨m', buf', _, hd⟩) hw hc he
  | appendPart v src off len =>
    simp only [textStep, Option.bind_eq_some_iff, Option.map_eq_some_iff] at hs
    obtain ⟨k, h1, p, hp, l, h1', rfl⟩ := hs
    obtain ⟨sb, h2, h3, h4, h5⟩ := h.getVar h1
    simp only [step, h2, Res.bind_ok] at he
    exact onVar_frame h h1' (f := fun m b => append m b (view sb off len)) (fun buf hv hb => by
      by_cases hvs : v = src
      · subst hvs
        rw [h3] at hv
        simp at hv
        subst hv
        have : k = l := by
          rw [h1] at h1'
          simpa using h1'
        subst this
        obtain ⟨m', buf', hd, _⟩ := append_self hb hp (hf k h1) (hr rfl sb k h3 h4)
        exact ⟨m', buf', _, hd⟩
      · obtain ⟨m', buf', hd, _⟩ := append_other hb h5
          (fun b hsb hbb => hvs (h.dist v src buf sb b hv h3 hbb hsb)) hp (hf l h1')
        exact ⟨m', buf', _, hd⟩) hw hc he
  | write v i x =>
    simp only [textStep, Option.bind_eq_some_iff] at hs
    obtain ⟨l, h1, h2⟩ := hs
    split at h2
    · rename_i hi
      exact onVar_frame h h1 (f := fun m b => do let m' ← poke m b i x; .ok (m', b))
        (fun buf _ hb => by
          obtain ⟨m', w1, w2, w3⟩ := write_spec hb hi x
          exact ⟨m', buf, _, by simp only [w1, Res.bind_ok], w2, w3, fun hz => hz⟩) hw hc he
    · simp at h2
  | destroy v =>
    simp only [textStep, Option.map_eq_some_iff] at hs
    obtain ⟨l, h1, rfl⟩ := hs
    obtain ⟨buf, h2, h3, h4, h5⟩ := h.getVar h1
    obtain ⟨m', g1, g2⟩ := Str.destroy_spec h5
    simp only [step, h2, g1, Res.bind_ok, Res.ok.injEq] at he
    subst he
    exact ⟨set_old hw hc _, fun b hb => h.others h3 g2 hw hc hb⟩

end Str
end Coil
