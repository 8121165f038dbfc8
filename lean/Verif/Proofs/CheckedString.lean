import Verif.Model.CheckedString
import Verif.Proofs.CheckedVector
import Verif.Proofs.StrProg
import Verif.Spec.Asserts

/-! # Strings with assertions -/

namespace Coil
namespace StrC
open Spec Mem Str

/-- What the assertions know of a buffer of a string. -/
structure Fine (b : BufC) : Prop where
  count : b.count = 0
  chunk : b.buf.ptr ≠ none → b.chunk = 1

/-- The checked operation does what the plain one does. -/
def As (x : Res (Mem UInt8 × BufC)) (m' : Mem UInt8) (buf' : Buf) : Prop := ∃ b', x = .ok (m', b') ∧ b'.buf = buf' ∧ Fine b'

theorem validate_ok {m : Mem UInt8} {buf : Buf} {l : Text} (h : SOwns m buf l) : validate m buf = .ok () := by
  unfold validate
  split
  · rename_i hs
    rcases h with ⟨rfl, _⟩ | ⟨b, c, h1, h2, h3, h4, h5, h6, h7, h8, h9⟩
    · simp [Buf.null] at hs
    · rw [assertThat_pos (by omega), Res.bind_ok]
      have : peek m buf (Str.length buf) = .ok 0 := by
        simp only [peek, readElem, deref, h1, Res.bind_ok, Coil.cells_ok h2, h5, h9 hs]
      rw [this, Res.bind_ok, assertThat_pos rfl]
  · rfl

theorem copy_ok {m : Mem UInt8} {b : BufC} {src : Src} (h : src.len ≤ b.buf.cap * b.chunk % 2 ^ 64) :
    copy m b src = (do
      let xs ← readSrc m src
      blit m b.buf 0 xs) := by
  unfold copy
  split
  · rename_i h0
    cases src with
    | ext xs =>
      have : xs = [] := by simpa [Src.len] using h0
      subst this
      rfl
    | «at» b' off n =>
      have : n = 0 := h0
      subst this
      rfl
  · rw [assertThat_pos h, Res.bind_ok]

theorem reserve_ok {m m' : Mem UInt8} {b : BufC} {buf' : Buf} {l : Text} {n : Nat} (h : SOwns m b.buf l) (g : Fine b)
    (hn : n + 1 < 2 ^ 64) (hr : Str.reserve m b.buf n = .ok (m', buf')) : As (reserve m b n) m' buf' := by
  obtain ⟨m1, buf1, hd, -⟩ := reserve_spec h hn
  have hq := hd.eq
  rw [hr] at hq
  cases hq
  have hv := validate_ok hd.owns
  unfold reserve
  rw [validate_ok h, Res.bind_ok]
  unfold Str.reserve at hr
  by_cases hc : (n + 1) % 2 ^ 64 > b.buf.cap
  · rw [if_pos hc] at hr ⊢
    rw [Nat.mod_eq_of_lt hn] at hr hc ⊢
    simp only [Res.bind_eq_ok] at hr
    obtain ⟨xs, r1, m2, r2, m3, r3, m4, r4, r5⟩ := hr
    cases r5
    have hnew := new_spec m (n := n + 1) (by omega) hn
    have hcap := h.cap
    have hlen := h.length
    have hvl := h.view_len (off := 0) (len := Str.length b.buf) (by omega)
    simp only [newBufC]
    rw [assertThat_pos (by omega)]
    simp only [Res.bind_ok]
    rw [copy_ok (by rw [hvl, hnew]; simp only [Nat.mul_one, Nat.mod_eq_of_lt hn]; omega)]
    rw [r1, Res.bind_ok, r2, Res.bind_ok, r3, Res.bind_ok, assertThat_pos (by rw [hnew]; simp only; omega), Res.bind_ok]
    unfold freeBufC
    rw [assertThat_pos g.count, Res.bind_ok, r4, Res.bind_ok, hv, Res.bind_ok]
    exact ⟨_, rfl, rfl, rfl, fun _ => rfl⟩
  · rw [if_neg hc] at hr ⊢
    cases hr
    simp only [Res.bind_ok]
    exact ⟨_, rfl, rfl, g⟩

theorem resize_ok {m m' : Mem UInt8} {b : BufC} {buf' : Buf} {l : Text} {n : Nat} (h : SOwns m b.buf l) (g : Fine b)
    (hn : n + 1 < 2 ^ 64) (hr : Str.resize m b.buf n = .ok (m', buf')) : As (resize m b n) m' buf' := by
  obtain ⟨m1, buf1, hd, hsz, -⟩ := resize_spec h hn
  have hq := hd.eq
  rw [hr] at hq
  cases hq
  obtain ⟨m2, buf2, hd2, hcap, -⟩ := reserve_spec h hn
  obtain ⟨b2, k1, rfl, k3⟩ := reserve_ok h g hn hd2.eq
  have hr' := hr
  simp only [Str.resize, hd2.eq, Res.bind_ok, Res.bind_eq_ok, Nat.mod_eq_of_lt hn] at hr'
  obtain ⟨m3, p1, p2⟩ := hr'
  cases p2
  unfold resize
  rw [validate_ok h, Res.bind_ok, k1, Res.bind_ok]
  simp only [Nat.mod_eq_of_lt hn]
  have c1 : assertThat (b2.buf.cap ≥ n + 1) = .ok () := assertThat_pos (by omega)
  simp only [c1, p1, validate_ok hd.owns, Res.bind_ok]
  exact ⟨_, rfl, rfl, k3.count, k3.chunk⟩

theorem append_ok {m m' : Mem UInt8} {b : BufC} {buf' : Buf} {l l' : Text} {src : Src} (h : SOwns m b.buf l) (g : Fine b)
    (hn : l.length + src.len + 1 < 2 ^ 64) (hr : Str.append m b.buf src = .ok (m', buf')) (ho : SOwns m' buf' l') :
    As (append m b src) m' buf' := by
  have e : (Str.length b.buf + src.len) % 2 ^ 64 = l.length + src.len := by rw [h.length, Nat.mod_eq_of_lt (by omega)]
  obtain ⟨m1, buf1, hd, -⟩ := resize_spec h hn
  obtain ⟨b1, k1, rfl, k3⟩ := resize_ok h g hn hd.eq
  simp only [Str.append, e, hd.eq, Res.bind_ok, Res.bind_eq_ok] at hr
  obtain ⟨xs, r1, m2, r2, r3⟩ := hr
  cases r3
  unfold append
  simp only [validate_ok h, e, k1, r1, r2, validate_ok ho, Res.bind_ok]
  exact ⟨_, rfl, rfl, k3⟩

theorem ofSrc_ok {m m' : Mem UInt8} {buf' : Buf} {l' : Text} {src : Src}
    (hn : src.len + 1 < 2 ^ 64) (hr : Str.ofSrc m src = .ok (m', buf')) (ho : SOwns m' buf' l') :
    As (ofSrc m src) m' buf' ∧ buf'.ptr ≠ none := by
  have h : SOwns m Buf.null [] := .inl ⟨rfl, rfl⟩
  obtain ⟨m1, buf1, hd, hsz, -⟩ := resize_spec h hn
  obtain ⟨b1, k1, rfl, k3⟩ := resize_ok (b := ⟨Buf.null, 1, 0⟩) h ⟨rfl, fun _ => rfl⟩ hn hd.eq
  have hp : b1.buf.ptr ≠ none := by
    rcases hd.owns with ⟨h1, _⟩ | ⟨b, c, h1, _⟩
    · rw [h1] at hsz
      simp [Buf.null] at hsz
    · simp [h1]
  have hcap := hd.owns.cap
  simp only [Str.ofSrc, hd.eq, Res.bind_ok, Res.bind_eq_ok] at hr
  obtain ⟨xs, r1, m2, r2, r3⟩ := hr
  cases r3
  refine ⟨?_, hp⟩
  unfold ofSrc
  rw [k1, Res.bind_ok]
  simp only
  rw [copy_ok (by rw [k3.chunk hp, Nat.mul_one, Nat.mod_eq_of_lt hcap.1]; omega), r1, Res.bind_ok, r2, Res.bind_ok, validate_ok ho,
    Res.bind_ok]
  exact ⟨_, rfl, rfl, k3⟩

theorem copyNew_ok {m m' : Mem UInt8} {b : BufC} {buf' : Buf} {l : Text} (h : SOwns m b.buf l) (g : Fine b) (hp : b.buf.ptr ≠ none)
    (hr : Str.copyNew m b.buf = .ok (m', buf')) : As (copyNew m b) m' buf' ∧ buf'.ptr ≠ none := by
  have hc := g.chunk hp
  have hcap := h.cap
  have hpos : 0 < b.buf.cap := by
    rcases h with ⟨h1, _⟩ | ⟨_, _, h1, h2, h3, h4, h5, h6, h7, _⟩
    · rw [h1] at hp
      simp [Buf.null] at hp
    · omega
  have hnew := new_spec m hpos hcap.1
  simp only [Str.copyNew, Res.bind_eq_ok] at hr
  obtain ⟨xs, r1, m2, r2, r3⟩ := hr
  cases r3
  refine ⟨?_, by rw [hnew]; simp⟩
  simp only [copyNew, newBufC]
  rw [hc, assertThat_pos (by omega)]
  simp only [Res.bind_ok]
  rw [assertThat_pos g.count, Res.bind_ok, Nat.mul_one, Nat.mod_eq_of_lt (show b.buf.size < 2 ^ 64 by omega),
    copy_ok (by rw [view_len (.inl hp), hnew]; simp only [Nat.mul_one, Nat.mod_eq_of_lt hcap.1]; exact hcap.2.2), r1, Res.bind_ok, r2, Res.bind_ok]
  exact ⟨_, rfl, rfl, rfl, fun _ => rfl⟩

theorem copyNew_hollow {m : Mem UInt8} {b : BufC} (h : b.chunk = 0) : copyNew m b = .ub .assertion := by
  unfold copyNew newBufC assertThat
  rw [if_neg (by omega)]
  rfl

/-- The invariant on the members that only assertions read; `h` says which strings have no block. -/
structure HInv (s : State) (h : List Bool) : Prop where
  len : s.vars.length = h.length
  fine : ∀ (v : Nat) b, s.vars[v]? = some (some b) → Fine b ∧ (h[v]? = some true → b = BufC.null) ∧ (h[v]? ≠ some true → b.buf.ptr ≠ none)

theorem HInv.fineOf {s : State} {h : List Bool} (hi : HInv s h) {v : Nat} {b : BufC} (hv : s.vars[v]? = some (some b)) : Fine b :=
  (hi.fine v b hv).1

theorem HInv.push {s : State} {h : List Bool} (hi : HInv s h) (m : Mem UInt8) {b : BufC} {x : Bool} (hf : Fine b)
    (h1 : x = true → b = BufC.null) (h2 : x ≠ true → b.buf.ptr ≠ none) : HInv ⟨m, s.vars ++ [some b]⟩ (h ++ [x]) := by
  refine ⟨by simp [hi.len], ?_⟩
  intro v b' hv
  simp only at hv
  by_cases hl : v < s.vars.length
  · rw [List.getElem?_append_left hl] at hv
    rw [List.getElem?_append_left (hi.len ▸ hl)]
    exact hi.fine v b' hv
  · have hl' := (List.getElem?_eq_some_iff.1 hv).1
    simp at hl'
    have : v = s.vars.length := by omega
    subst this
    simp at hv
    subst hv
    rw [hi.len]
    simp only [List.getElem?_append_right, Nat.le_refl, Nat.sub_self, List.getElem?_cons_zero, Option.some.injEq, ne_eq]
    exact ⟨hf, h1, h2⟩

theorem HInv.set {s : State} {h : List Bool} (hi : HInv s h) (m : Mem UInt8) (v : Nat) {b : BufC} {x : Bool} (hf : Fine b)
    (h1 : x = true → b = BufC.null) (h2 : x ≠ true → b.buf.ptr ≠ none) : HInv ⟨m, s.vars.set v (some b)⟩ (h.set v x) := by
  refine ⟨by simp [hi.len], ?_⟩
  intro w b' hw
  simp only [List.getElem?_set] at hw ⊢
  rw [← hi.len]
  split at hw
  · rename_i hvw
    subst hvw
    split at hw
    · rename_i hlt
      cases hw
      rw [if_pos rfl, if_pos hlt]
      simp only [Option.some.injEq, ne_eq]
      exact ⟨hf, h1, h2⟩
    · cases hw
  · rename_i hvw
    rw [if_neg hvw]
    exact hi.fine w b' hw

theorem HInv.kill {s : State} {h : List Bool} (hi : HInv s h) (m : Mem UInt8) (v : Nat) : HInv ⟨m, s.vars.set v none⟩ h := by
  refine ⟨by simp [hi.len], ?_⟩
  intro w b' hw
  simp only [List.getElem?_set] at hw
  split at hw
  · split at hw <;> cases hw
  · exact hi.fine w b' hw

theorem forget_set (s : State) (m : Mem UInt8) (v : Nat) (o : Option BufC) :
    (State.mk m (s.vars.set v o)).forget = ⟨m, s.forget.vars.set v (o.map BufC.buf)⟩ := by
  simp [State.forget, List.map_set]

theorem forget_push (s : State) (m : Mem UInt8) (b : BufC) :
    (State.mk m (s.vars ++ [some b])).forget = ⟨m, s.forget.vars ++ [some b.buf]⟩ := by
  simp [State.forget]

theorem nonnull_of_cap {m : Mem UInt8} {buf : Buf} {l : Text} (h : SOwns m buf l) (hc : 0 < buf.cap) : buf.ptr ≠ none := by
  rcases h with ⟨h1, _⟩ | ⟨b, c, h1, _⟩
  · rw [h1] at hc
    simp [Buf.null] at hc
  · simp [h1]

/-- A live variable, both with and without the members that assertions read. -/
theorem getBoth {s : State} {e : Texts} (hi : SInv s.forget e) {v : Nat} {l : Text} (hv : textOf e v = some l) :
    ∃ b, VecC.getVar s.vars v = .ok b ∧ s.vars[v]? = some (some b) ∧ Vec.getVar s.forget.vars v = .ok b.buf ∧ SOwns s.mem b.buf l := by
  obtain ⟨buf, h1, -, -, h2⟩ := hi.getVar hv
  obtain ⟨b, k1, rfl, k2⟩ := VecC.getVar_ok h1
  exact ⟨b, k1, k2, h1, h2⟩

theorem partOf_ok {m : Mem UInt8} {b : BufC} {l p : Text} (h : SOwns m b.buf l) (hp : b.buf.ptr ≠ none) {off len : Nat}
    (hk : part l off len = some p) : partOf b off len = .ok (view b.buf off len) := by
  have hle : off + len ≤ l.length := by
    unfold part at hk
    split at hk
    · assumption
    · cases hk
  have hcap := h.cap
  have hlen := h.length
  unfold partOf
  rw [assertThat_pos hp, Res.bind_ok, assertThat_pos (by omega), Res.bind_ok, assertThat_pos (by omega), Res.bind_ok,
    assertThat_pos (by rw [Nat.mod_eq_of_lt (by omega)]; omega), Res.bind_ok]

theorem partOf_hollow (off len : Nat) : partOf BufC.null off len = .ub .assertion := rfl

/-- A statement that uses the text of a string that was moved from stops. -/
theorem step_hollow {s : State} {e e' : Texts} {h : List Bool} (hi : SInv s.forget e) (hh : HInv s h) {op : Op}
    (hs : textStep e op = some e') {v : Nat} (hv : sourceOf op = some v) (ht : h[v]? = some true) : step s op = .ub .assertion := by
  cases op <;> simp only [sourceOf, reduceCtorEq, Option.some.injEq] at hv <;> subst hv
  all_goals
    simp only [textStep, Option.bind_eq_some_iff, Option.map_eq_some_iff] at hs
    obtain ⟨l, h1, -⟩ := hs
    obtain ⟨b, g1, g2, -⟩ := getBoth hi h1
    obtain rfl := (hh.fine _ b g2).2.1 ht
    simp only [step, g1, Res.bind_ok]
  all_goals rfl

/-- What a statement does otherwise. -/
theorem step_ok {s : State} {e e' : Texts} {h : List Bool} (hi : SInv s.forget e) (hh : HInv s h) {op : Op} (hf : TextFits e op)
    (hr : Room s.forget e op) (hs : textStep e op = some e') (hn : ∀ v, sourceOf op = some v → h[v]? ≠ some true) :
    ∃ s', step s op = .ok s' ∧ Str.step s.forget op = .ok s'.forget ∧ HInv s' (hollowAfter h op) := by
  obtain ⟨t, t1, t2, -⟩ := step_spec hi hf hr hs
  rw [t1]
  cases op with
  | ofBytes xs =>
    simp only [Str.step, Res.bind_eq_ok] at t1
    obtain ⟨⟨m', buf'⟩, q1, q2⟩ := t1
    cases q2
    have hx : xs.length + 1 < 2 ^ 64 := hf
    obtain ⟨m1, b1, hd, -⟩ := append_ext (m := s.mem) (buf := Buf.null) (l := []) (.inl ⟨rfl, rfl⟩) (xs := xs) (by simpa using hx)
    have hq := hd.eq
    rw [← ofSrc_append _ _ (by simp only [Src.len]; omega)] at hq
    have hq1 : Str.ofSrc s.mem (.ext xs) = .ok (m', buf') := q1
    rw [hq1] at hq
    cases hq
    obtain ⟨⟨b, k1, rfl, k3⟩, k4⟩ := ofSrc_ok (src := .ext xs) hx q1 hd.owns
    refine ⟨⟨m', s.vars ++ [some b]⟩, ?_, ?_, ?_⟩
    · have k1' : ofSrc s.mem (.ext xs) = .ok (m', b) := k1
      simp only [step, k1', Res.bind_ok]
    · rw [forget_push]
    · exact hh.push m' k3 (by simp) (fun _ => k4)
  | ofPart src off len =>
    simp only [textStep, Option.bind_eq_some_iff, Option.map_eq_some_iff] at hs
    obtain ⟨k, h1, p, hp, rfl⟩ := hs
    obtain ⟨sb, g1, g2, g3, g4⟩ := getBoth hi h1
    have hnn := (hh.fine src sb g2).2.2 (hn src rfl)
    simp only [Str.step, g3, Res.bind_ok, Res.bind_eq_ok] at t1
    obtain ⟨⟨m', buf'⟩, q1, q2⟩ := t1
    cases q2
    have hk : off + len ≤ k.length := by
      unfold part at hp
      split at hp
      · assumption
      · simp at hp
    have hcap : k.length + 1 < 2 ^ 64 := by
      rcases g4 with ⟨h1, _⟩ | ⟨_, _, h1, h2, h3, h4, h5, h6, h7, _⟩
      · rw [h1] at hnn
        simp [Buf.null] at hnn
      · omega
    have hvl := g4.view_len hk
    obtain ⟨m1, b1, hd, -⟩ := append_other (m := s.mem) (buf := Buf.null) (l := []) (.inl ⟨rfl, rfl⟩) g4
      (by simp [Buf.null]) hp (by simp only [List.length_nil]; omega)
    have hq := hd.eq
    rw [← ofSrc_append _ _ (by rw [hvl]; omega)] at hq
    have hq1 : Str.ofSrc s.mem (view sb.buf off len) = .ok (m', buf') := q1
    rw [hq1] at hq
    cases hq
    obtain ⟨⟨b, k1, rfl, k3⟩, k4⟩ := ofSrc_ok (src := view sb.buf off len) (by rw [hvl]; omega) hq1 hd.owns
    refine ⟨⟨m', s.vars ++ [some b]⟩, ?_, ?_, ?_⟩
    · simp only [step, g1, partOf_ok g4 hnn hp, k1, Res.bind_ok]
    · rw [forget_push]
    · exact hh.push m' k3 (by simp) (fun _ => k4)
  | copyNew src =>
    simp only [textStep, Option.map_eq_some_iff] at hs
    obtain ⟨k, h1, rfl⟩ := hs
    obtain ⟨sb, g1, g2, g3, g4⟩ := getBoth hi h1
    have hnn := (hh.fine src sb g2).2.2 (hn src rfl)
    simp only [Str.step, g3, Res.bind_ok, Res.bind_eq_ok] at t1
    obtain ⟨⟨m', buf'⟩, q1, q2⟩ := t1
    cases q2
    obtain ⟨⟨b, k1, rfl, k3⟩, k4⟩ := copyNew_ok g4 (hh.fineOf g2) hnn q1
    refine ⟨⟨m', s.vars ++ [some b]⟩, ?_, ?_, ?_⟩
    · simp only [step, g1, k1, Res.bind_ok]
    · rw [forget_push]
    · exact hh.push m' k3 (by simp) (fun _ => k4)
  | moveNew src =>
    simp only [textStep, Option.map_eq_some_iff] at hs
    obtain ⟨k, h1, rfl⟩ := hs
    obtain ⟨sb, g1, g2, g3, g4⟩ := getBoth hi h1
    simp only [Str.step, g3, Res.bind_ok] at t1
    cases t1
    refine ⟨⟨s.mem, s.vars.set src (some BufC.null) ++ [some sb]⟩, ?_, ?_, ?_⟩
    · simp only [step, g1, Res.bind_ok]
    · simp [State.forget, BufC.null, List.map_set]
    · have hset := hh.set s.mem src (b := BufC.null) (x := true) ⟨rfl, by simp [BufC.null, Buf.null]⟩ (fun _ => rfl) (by simp)
      obtain ⟨f1, f2, f3⟩ := hh.fine src sb g2
      have hlt : src < h.length := hh.len ▸ (List.getElem?_eq_some_iff.1 g2).1
      have hx : h[src]? = some (h.getD src false) := by simp [hlt]
      exact hset.push s.mem f1 (fun hb => f2 (by rw [hx, hb])) (fun hb => f3 (by rw [hx]; simpa using hb))
  | copyAssign dst src =>
    simp only [textStep, Option.bind_eq_some_iff, Option.map_eq_some_iff] at hs
    obtain ⟨k, h1, old, h1', rfl⟩ := hs
    obtain ⟨sb, g1, g2, g3, g4⟩ := getBoth hi h1
    obtain ⟨db, d1, d2, d3, d4⟩ := getBoth hi h1'
    have hnn := (hh.fine src sb g2).2.2 (hn src rfl)
    simp only [Str.step, g3, d3, Res.bind_ok, Res.bind_eq_ok] at t1
    obtain ⟨⟨m', buf'⟩, q1, m2, q2, q3⟩ := t1
    cases q3
    obtain ⟨⟨b, k1, rfl, k3⟩, k4⟩ := copyNew_ok g4 (hh.fineOf g2) hnn q1
    refine ⟨⟨m2, s.vars.set dst (some b)⟩, ?_, ?_, ?_⟩
    · simp only at q2
      simp only [step, g1, d1, k1, Res.bind_ok, assertThat_pos (hh.fineOf g2).count, freeBufC, assertThat_pos (hh.fineOf d2).count, q2]
    · rw [forget_set]
      rfl
    · exact hh.set m2 dst k3 (by simp) (fun _ => k4)
  | moveAssign dst src =>
    simp only [textStep, Option.bind_eq_some_iff, Option.map_eq_some_iff] at hs
    obtain ⟨k, h1, old, h1', rfl⟩ := hs
    obtain ⟨sb, g1, g2, g3, g4⟩ := getBoth hi h1
    obtain ⟨db, d1, d2, d3, d4⟩ := getBoth hi h1'
    simp only [Str.step, g3, d3, Res.bind_ok] at t1
    cases t1
    refine ⟨⟨s.mem, (s.vars.set src (some db)).set dst (some sb)⟩, ?_, ?_, ?_⟩
    · simp only [step, g1, d1, Res.bind_ok]
    · simp [State.forget, List.map_set]
    · obtain ⟨f1, f2, f3⟩ := hh.fine src sb g2
      obtain ⟨e1, e2, e3⟩ := hh.fine dst db d2
      have hlt : src < h.length := hh.len ▸ (List.getElem?_eq_some_iff.1 g2).1
      have hlt' : dst < h.length := hh.len ▸ (List.getElem?_eq_some_iff.1 d2).1
      have hx : h[src]? = some (h.getD src false) := by simp [hlt]
      have hy : h[dst]? = some (h.getD dst false) := by simp [hlt']
      have hset := hh.set s.mem src (b := db) (x := h.getD dst false) e1 (fun hb => e2 (by rw [hy, hb])) (fun hb => e3 (by rw [hy]; simpa using hb))
      exact hset.set s.mem dst (b := sb) (x := h.getD src false) f1 (fun hb => f2 (by rw [hx, hb])) (fun hb => f3 (by rw [hx]; simpa using hb))
  | reserve v n =>
    simp only [textStep, Option.map_eq_some_iff] at hs
    obtain ⟨k, h1, rfl⟩ := hs
    obtain ⟨sb, g1, g2, g3, g4⟩ := getBoth hi h1
    simp only [Str.step, Str.onVar, g3, Res.bind_ok, Res.bind_eq_ok] at t1
    obtain ⟨⟨m', buf'⟩, q1, q2⟩ := t1
    cases q2
    obtain ⟨m1, b1, hd, hcap, -⟩ := reserve_spec g4 hf
    have hq := hd.eq
    have q1' : Str.reserve s.mem sb.buf n = .ok (m', buf') := q1
    rw [q1'] at hq
    cases hq
    obtain ⟨b, k1, rfl, k3⟩ := reserve_ok g4 (hh.fineOf g2) hf q1'
    refine ⟨⟨m', s.vars.set v (some b)⟩, ?_, ?_, ?_⟩
    · simp only [step, onVar, g1, k1, Res.bind_ok]
    · rw [forget_set]
      rfl
    · exact hh.set m' v k3 (by simp) (fun _ => nonnull_of_cap hd.owns (by omega))
  | resize v n =>
    simp only [textStep, Option.map_eq_some_iff] at hs
    obtain ⟨k, h1, rfl⟩ := hs
    obtain ⟨sb, g1, g2, g3, g4⟩ := getBoth hi h1
    simp only [Str.step, Str.onVar, g3, Res.bind_ok, Res.bind_eq_ok] at t1
    obtain ⟨⟨m', buf'⟩, q1, q2⟩ := t1
    cases q2
    obtain ⟨m1, b1, hd, hsz, -⟩ := resize_spec g4 hf
    have hq := hd.eq
    have q1' : Str.resize s.mem sb.buf n = .ok (m', buf') := q1
    rw [q1'] at hq
    cases hq
    obtain ⟨b, k1, rfl, k3⟩ := resize_ok g4 (hh.fineOf g2) hf q1'
    refine ⟨⟨m', s.vars.set v (some b)⟩, ?_, ?_, ?_⟩
    · simp only [step, onVar, g1, k1, Res.bind_ok]
    · rw [forget_set]
      rfl
    · exact hh.set m' v k3 (by simp) (fun _ => nonnull_of_cap hd.owns (by have := hd.owns.cap; omega))
  | append v xs =>
    simp only [textStep, Option.map_eq_some_iff] at hs
    obtain ⟨k, h1, rfl⟩ := hs
    obtain ⟨sb, g1, g2, g3, g4⟩ := getBoth hi h1
    simp only [Str.step, Str.onVar, g3, Res.bind_ok, Res.bind_eq_ok] at t1
    obtain ⟨⟨m', buf'⟩, q1, q2⟩ := t1
    cases q2
    obtain ⟨m1, b1, hd, hsz⟩ := append_ext g4 (hf k h1)
    have hq := hd.eq
    have q1' : Str.append s.mem sb.buf (.ext xs) = .ok (m', buf') := q1
    rw [q1'] at hq
    cases hq
    obtain ⟨b, k1, rfl, k3⟩ := append_ok (src := .ext xs) g4 (hh.fineOf g2) (hf k h1) q1' hd.owns
    refine ⟨⟨m', s.vars.set v (some b)⟩, ?_, ?_, ?_⟩
    · simp only [step, onVar, g1, k1, Res.bind_ok]
    · rw [forget_set]
      rfl
    · exact hh.set m' v k3 (by simp) (fun _ => nonnull_of_cap hd.owns (by have := hd.owns.cap; omega))
  | appendPart v src off len =>
    simp only [textStep, Option.bind_eq_some_iff, Option.map_eq_some_iff] at hs
    obtain ⟨k, h1, p, hp, l, h1', rfl⟩ := hs
    obtain ⟨sb, g1, g2, g3, g4⟩ := getBoth hi h1
    obtain ⟨vb, d1, d2, d3, d4⟩ := getBoth hi h1'
    have hnn := (hh.fine src sb g2).2.2 (hn src rfl)
    simp only [Str.step, Str.onVar, g3, d3, Res.bind_ok, Res.bind_eq_ok] at t1
    obtain ⟨⟨m', buf'⟩, q1, q2⟩ := t1
    cases q2
    have q1' : Str.append s.mem vb.buf (view sb.buf off len) = .ok (m', buf') := q1
    have hk : off + len ≤ k.length := by
      unfold part at hp
      split at hp
      · assumption
      · simp at hp
    have hvl := g4.view_len hk
    have hlt := (List.getElem?_eq_some_iff.1 d2).1
    have ho : ∃ l', SOwns m' buf' l' := by
      obtain ⟨l', -, h2⟩ := t2.own v buf' (by simp [State.forget, hlt])
      exact ⟨l', h2⟩
    obtain ⟨l', ho⟩ := ho
    have hfit : l.length + (view sb.buf off len).len + 1 < 2 ^ 64 := by
      rw [hvl]
      exact hf l h1'
    obtain ⟨b, k1, rfl, k3⟩ := append_ok d4 (hh.fineOf d2) hfit q1' ho
    refine ⟨⟨m', s.vars.set v (some b)⟩, ?_, ?_, ?_⟩
    · simp only [step, onVar, g1, d1, partOf_ok g4 hnn hp, k1, Res.bind_ok]
    · rw [forget_set]
      rfl
    · refine hh.set m' v k3 (by simp) (fun _ => ?_)
      obtain ⟨m1, b1, hd, hsz, -⟩ := resize_spec d4 (n := l.length + (view sb.buf off len).len) hfit
      simp only [Str.append, d4.length, Nat.mod_eq_of_lt (show l.length + (view sb.buf off len).len < 2 ^ 64 by omega), hd.eq, Res.bind_ok,
        Res.bind_eq_ok] at q1'
      obtain ⟨xs, -, m2, -, r3⟩ := q1'
      cases r3
      exact nonnull_of_cap hd.owns (by have := hd.owns.cap; omega)
  | write v i x =>
    simp only [textStep, Option.bind_eq_some_iff] at hs
    obtain ⟨k, h1, h2⟩ := hs
    obtain ⟨sb, g1, g2, g3, g4⟩ := getBoth hi h1
    simp only [Str.step, Str.onVar, g3, Res.bind_ok, Res.bind_eq_ok] at t1
    obtain ⟨⟨m', buf'⟩, ⟨m2, q1, q3⟩, q2⟩ := t1
    cases q3
    cases q2
    have q1' : poke s.mem sb.buf i x = .ok m' := q1
    refine ⟨⟨m', s.vars.set v (some sb)⟩, ?_, ?_, ?_⟩
    · simp only [step, onVar, g1, q1', Res.bind_ok]
    · rw [forget_set]
      rfl
    · refine ⟨by simp [hh.len, hollowAfter], ?_⟩
      intro w b hw
      simp only [List.getElem?_set] at hw
      split at hw
      · rename_i hvw
        subst hvw
        split at hw
        · cases hw
          exact hh.fine _ _ g2
        · cases hw
      · exact hh.fine w b hw
  | destroy v =>
    simp only [textStep, Option.map_eq_some_iff] at hs
    obtain ⟨k, h1, rfl⟩ := hs
    obtain ⟨sb, g1, g2, g3, g4⟩ := getBoth hi h1
    simp only [Str.step, g3, Res.bind_ok, Res.bind_eq_ok] at t1
    obtain ⟨m', q1, q2⟩ := t1
    cases q2
    have q1' : freeBuf s.mem sb.buf = .ok m' := q1
    refine ⟨⟨m', s.vars.set v none⟩, ?_, ?_, hh.kill m' v⟩
    · simp only [step, g1, freeBufC, assertThat_pos (hh.fineOf g2).count, q1', Res.bind_ok]
    · rw [forget_set]
      rfl

theorem hinv_init : HInv ⟨Mem.empty, []⟩ [] := ⟨rfl, by simp⟩

theorem run_ok {s : State} {e e' : Texts} {h : List Bool} (hi : SInv s.forget e) (hh : HInv s h) {ops : List Op}
    (hf : TextFitsAll e ops) (hn : ∀ op ∈ ops, ¬ SelfAppend op) (hs : textRun e ops = some e') (ht : ¬ TakesHollow h ops) :
    ∃ s', run s ops = .ok s' ∧ Str.run s.forget ops = .ok s'.forget ∧ SInv s'.forget e' ∧ HInv s' (ops.foldl hollowAfter h) := by
  induction ops generalizing s e h with
  | nil =>
    simp only [textRun, Option.some.injEq] at hs
    subst hs
    exact ⟨s, rfl, rfl, hi, hh⟩
  | cons op ops ih =>
    simp only [textRun, Option.bind_eq_some_iff] at hs
    obtain ⟨e1, h1, h2⟩ := hs
    have hr : Room s.forget e op := .of_not_self (hn op (by simp))
    obtain ⟨s1, k1, k2, k3⟩ := step_ok hi hh hf.1 hr h1 (fun v hv hx => ht (.inl ⟨v, hv, hx⟩))
    obtain ⟨t, t1, t2, -⟩ := step_spec hi hf.1 hr h1
    rw [k2] at t1
    cases t1
    obtain ⟨s', q1, q2, q3, q4⟩ := ih t2 k3 (hf.2 e1 h1) (fun o ho => hn o (by simp [ho])) h2 (fun hx => ht (.inr hx))
    exact ⟨s', by simp only [run, k1, Res.bind_ok, q1], by simp only [Str.run, k2, Res.bind_ok, q2], q3, q4⟩

theorem run_hollow {s : State} {e e' : Texts} {h : List Bool} (hi : SInv s.forget e) (hh : HInv s h) {ops : List Op}
    (hf : TextFitsAll e ops) (hn : ∀ op ∈ ops, ¬ SelfAppend op) (hs : textRun e ops = some e') (ht : TakesHollow h ops) :
    run s ops = .ub .assertion := by
  induction ops generalizing s e h with
  | nil => exact ht.elim
  | cons op ops ih =>
    simp only [textRun, Option.bind_eq_some_iff] at hs
    obtain ⟨e1, h1, h2⟩ := hs
    by_cases hx : ∃ v, sourceOf op = some v ∧ h[v]? = some true
    · obtain ⟨v, hv, hx⟩ := hx
      simp only [run, step_hollow hi hh h1 hv hx]
      rfl
    · have hr : Room s.forget e op := .of_not_self (hn op (by simp))
      obtain ⟨s1, k1, k2, k3⟩ := step_ok hi hh hf.1 hr h1 (fun v hv hy => hx ⟨v, hv, hy⟩)
      obtain ⟨t, t1, t2, -⟩ := step_spec hi hf.1 hr h1
      rw [k2] at t1
      cases t1
      simp only [run, k1, Res.bind_ok]
      exact ih t2 k3 (hf.2 e1 h1) (fun o ho => hn o (by simp [ho])) h2 (ht.resolve_left hx)

theorem run_snoc (s0 : State) (ops : List Op) (op : Op) : run s0 (ops ++ [op]) = (run s0 ops >>= fun s => step s op) := by
  induction ops generalizing s0 with
  | nil =>
    simp only [List.nil_append, run, Res.bind_ok]
    cases step s0 op <;> rfl
  | cons op' ops ih =>
    simp only [List.cons_append, run]
    cases step s0 op' with
    | ok s1 => simp only [Res.bind_ok, ih]
    | ub u => rfl
    | diverge => rfl

end StrC
end Coil
