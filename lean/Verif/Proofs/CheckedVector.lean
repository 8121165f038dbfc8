import Verif.Model.CheckedVector
import Verif.Proofs.Assert
import Verif.Proofs.VecProg

/-! # Vectors in builds with assertions -/

namespace Coil
open Spec Mem

theorem Spec.StopsAs.bind {α β γ δ : Type} {f : β → α} {g : δ → γ} {x : Res β} {y : Res α} {k : β → Res δ} {h : α → Res γ}
    (h1 : StopsAs f x y) (h2 : ∀ b, StopsAs g (k b) (h (f b))) : StopsAs g (x >>= k) (y >>= h) := by
  rcases h1 with h1 | rfl
  · cases x with
    | ok b =>
      subst h1
      exact h2 b
    | ub u =>
      subst h1
      exact .inl rfl
    | diverge =>
      subst h1
      exact .inl rfl
  · exact .inr rfl

theorem Spec.StopsAs.ok {α β : Type} {f : β → α} {b : β} {a : α} (h : f b = a) : StopsAs f (.ok b) (.ok a) := by
  subst h
  exact .inl rfl

theorem Spec.StopsAs.check {α β : Type} {f : β → α} {c : Prop} [Decidable c] {x : Res β} {y : Res α} (h : StopsAs f x y) :
    StopsAs f (assertThat c >>= fun _ => x) y := by
  unfold assertThat
  split
  · exact h
  · exact .inr rfl

/-- A step both builds do alike. -/
theorem Spec.StopsAs.both {α β γ : Type} {f : β → α} {x : Res γ} {k : γ → Res β} {h : γ → Res α}
    (h2 : ∀ c, StopsAs f (k c) (h c)) : StopsAs f (x >>= k) (x >>= h) := by
  cases x with
  | ok b => exact h2 b
  | ub u => exact .inl rfl
  | diverge => exact .inl rfl

variable {α : Type}

/-- Memory and a buffer without the members only assertions read. -/
def forgetB (p : Mem α × BufC) : Mem α × Buf := (p.1, p.2.buf)

theorem stops_newBuf (sz : Nat) (m : Mem α) (n : Nat) : StopsAs forgetB (newBufC sz m n) (.ok (newBuf sz m n)) := by
  unfold newBufC
  exact .check (.ok rfl)

theorem stops_freeBuf (m : Mem α) (b : BufC) : StopsAs id (freeBufC m b) (freeBuf m b.buf) := by
  unfold freeBufC
  refine .check ?_
  left
  cases freeBuf m b.buf <;> rfl

theorem stops_constructNext (sz : Nat) (m : Mem α) (b : BufC) (x : α) :
    StopsAs forgetB (constructNextC sz m b x) (constructNext m b.buf x) := by
  unfold constructNextC
  refine .check (.check (.check ?_))
  left
  cases constructNext m b.buf x <;> rfl

theorem stops_destructLast (sz : Nat) (m : Mem α) (b : BufC) :
    StopsAs forgetB (destructLastC sz m b) (destructLast m b.buf) := by
  unfold destructLastC
  refine .check (.check ?_)
  cases h : destructLast m b.buf with
  | ok p => exact .check (.ok rfl)
  | ub u => exact .inl rfl
  | diverge => exact .inl rfl

namespace VecC

variable {sz : Nat} {moved : α → α} {dflt : α}

theorem stops_destructMany (k : Nat) (m : Mem α) (b : BufC) :
    StopsAs forgetB (destructMany sz k m b) (Vec.destructMany k m b.buf) := by
  induction k generalizing m b with
  | zero => exact .ok rfl
  | succ k ih => exact (stops_destructLast sz m b).bind (fun p => ih p.1 p.2)

theorem stops_moveLoop (k i : Nat) (m : Mem α) (b new : BufC) :
    StopsAs forgetB (moveLoop sz moved k i m b new) (Vec.moveLoop moved k i m b.buf new.buf) := by
  induction k generalizing i m new with
  | zero => exact .ok rfl
  | succ k ih =>
    exact .both (fun x => (stops_constructNext sz m new x).bind (fun p => .both (fun m2 => ih (i + 1) m2 p.2)))

theorem stops_grow (m : Mem α) (b : BufC) (n : Nat) :
    StopsAs forgetB (grow sz moved m b n) (Vec.grow sz moved m b.buf n) := by
  refine (stops_newBuf sz m n).bind (h := fun q => Vec.moveLoop moved b.buf.size 0 q.1 b.buf q.2 >>= fun r =>
    Vec.destructMany b.buf.size r.1 b.buf >>= fun t => freeBuf t.1 t.2 >>= fun m4 => .ok (m4, r.2)) (fun q => ?_)
  refine (stops_moveLoop _ _ _ _ _).bind (fun r => .check ?_)
  refine (stops_destructMany _ _ _).bind (fun t => .check ?_)
  exact (stops_freeBuf _ _).bind (fun m4 => .ok rfl)

theorem stops_reserve (m : Mem α) (b : BufC) (n : Nat) :
    StopsAs forgetB (reserve sz moved m b n) (Vec.reserve sz moved m b.buf n) := by
  unfold reserve Vec.reserve
  split
  · exact stops_grow _ _ _
  · exact .ok rfl

theorem stops_constructMany (k : Nat) (m : Mem α) (b : BufC) :
    StopsAs forgetB (constructMany sz dflt k m b) (Vec.constructMany dflt k m b.buf) := by
  induction k generalizing m b with
  | zero => exact .ok rfl
  | succ k ih => exact (stops_constructNext sz m b dflt).bind (fun p => ih p.1 p.2)

theorem bind_pure {β : Type} (x : Res β) : (x >>= fun a => .ok a) = x := by cases x <;> rfl

theorem stops_resize (m : Mem α) (b : BufC) (n : Nat) :
    StopsAs forgetB (resize sz moved dflt m b n) (Vec.resize sz moved dflt m b.buf n) := by
  refine (stops_reserve _ _ _).bind (fun p => .check ((stops_destructMany _ _ _).bind (fun q => ?_)))
  obtain ⟨m2, b2⟩ := q
  simp only [forgetB]
  rw [← bind_pure (Vec.constructMany _ _ _ _)]
  exact (stops_constructMany _ _ _).bind (fun r => .check (.ok rfl))

theorem stops_growForOne (m : Mem α) (b : BufC) :
    StopsAs forgetB (growForOne sz moved m b) (Vec.growForOne sz moved m b.buf) := by
  unfold growForOne Vec.growForOne
  split
  · exact stops_grow _ _ _
  · exact .ok rfl

theorem stops_pushBack (m : Mem α) (b : BufC) (x : α) :
    StopsAs forgetB (pushBack sz moved m b x) (Vec.pushBack sz moved m b.buf x) :=
  (stops_growForOne m b).bind (fun p => .check (stops_constructNext sz p.1 p.2 x))

theorem stops_popBack (m : Mem α) (b : BufC) : StopsAs forgetB (popBack sz m b) (Vec.popBack m b.buf) :=
  .check (stops_destructLast sz m b)

theorem stops_fillFrom (xs : List α) (m : Mem α) (b : BufC) :
    StopsAs forgetB (fillFrom sz xs m b) (Vec.fillFrom xs m b.buf) := by
  induction xs generalizing m b with
  | nil => exact .ok rfl
  | cons x xs ih => exact (stops_constructNext sz m b x).bind (fun p => ih p.1 p.2)

theorem stops_ofRange (m : Mem α) (xs : List α) : StopsAs forgetB (ofRange sz m xs) (Vec.ofRange sz m xs) :=
  (stops_newBuf sz m xs.length).bind (h := fun q => Vec.fillFrom xs q.1 q.2)
    (fun p => .check (.check (stops_fillFrom xs p.1 p.2)))

theorem stops_copyLoop (k i : Nat) (m : Mem α) (b new : BufC) :
    StopsAs forgetB (copyLoop sz k i m b new) (Vec.copyLoop k i m b.buf new.buf) := by
  induction k generalizing i m new with
  | zero => exact .ok rfl
  | succ k ih => exact .both (fun x => (stops_constructNext sz m new x).bind (fun p => ih (i + 1) p.1 p.2))

theorem stops_copyNew (m : Mem α) (b : BufC) : StopsAs forgetB (copyNew sz m b) (Vec.copyNew sz m b.buf) :=
  (stops_newBuf sz m b.buf.size).bind (h := fun q => Vec.copyLoop b.buf.size 0 q.1 b.buf q.2)
    (fun p => .check (.check (stops_copyLoop _ _ p.1 b p.2)))

theorem stops_clear (m : Mem α) (b : BufC) : StopsAs forgetB (clear sz m b) (Vec.clear m b.buf) := stops_destructMany _ _ _

theorem stops_destroy (m : Mem α) (b : BufC) : StopsAs id (destroy sz m b) (Vec.destroy m b.buf) :=
  (stops_clear m b).bind (fun p => stops_freeBuf p.1 p.2)

theorem stops_write (m : Mem α) (b : BufC) (i : Nat) (x : α) :
    StopsAs forgetB (write m b i x) (do
      let m' ← writeElem m b.buf i x
      .ok (m', b.buf)) :=
  .check (.both (fun _ => .ok rfl))

theorem stops_getVar (vars : List (Option BufC)) (v : Nat) :
    StopsAs BufC.buf (getVar vars v) (Vec.getVar (vars.map (Option.map BufC.buf)) v) := by
  unfold getVar Vec.getVar
  rw [List.getElem?_map]
  cases vars[v]? with
  | none => exact .inl rfl
  | some o => cases o <;> exact .inl rfl

theorem stops_onVar (s : State α) (v : Nat) {f : Mem α → BufC → Res (Mem α × BufC)} {g : Mem α → Buf → Res (Mem α × Buf)}
    (h : ∀ m b, StopsAs forgetB (f m b) (g m b.buf)) : StopsAs State.forget (onVar s v f) (Vec.onVar s.forget v g) :=
  (stops_getVar s.vars v).bind (fun b => (h s.mem b).bind (fun p => .ok (by simp [State.forget, List.map_set])))

theorem stops_step (s : State α) (op : Vec.Op α) :
    StopsAs State.forget (step sz moved dflt s op) (Vec.step sz moved dflt s.forget op) := by
  cases op with
  | create n =>
    exact (stops_newBuf sz s.mem n).bind (g := State.forget) (k := fun p => .ok ⟨p.1, s.vars ++ [some p.2]⟩)
      (h := fun q => (.ok ⟨q.1, s.forget.vars ++ [some q.2]⟩ : Res (Vec.State α)))
      (fun p => .ok (by simp [State.forget, forgetB]))
  | ofRange xs => exact (stops_ofRange s.mem xs).bind (fun p => .ok (by simp [State.forget]))
  | copyNew src =>
    exact (stops_getVar s.vars src).bind (fun b => (stops_copyNew s.mem b).bind (fun p => .ok (by simp [State.forget])))
  | moveNew src =>
    exact (stops_getVar s.vars src).bind (fun b => .ok (by simp [State.forget, List.map_set, BufC.null]))
  | copyAssign dst src =>
    exact (stops_getVar s.vars src).bind (fun b => (stops_copyNew s.mem b).bind (fun p => (stops_getVar s.vars dst).bind (fun d =>
      (stops_destroy p.1 d).bind (fun m' => .ok (by simp [State.forget, List.map_set])))))
  | moveAssign dst src =>
    exact (stops_getVar s.vars src).bind (fun b => (stops_getVar s.vars dst).bind (fun d =>
      .ok (by simp [State.forget, List.map_set])))
  | reserve v n =>
    exact stops_onVar s v (f := fun m b => reserve sz moved m b n) (g := fun m b => Vec.reserve sz moved m b n)
      (fun m b => stops_reserve m b n)
  | resize v n =>
    exact stops_onVar s v (f := fun m b => resize sz moved dflt m b n) (g := fun m b => Vec.resize sz moved dflt m b n)
      (fun m b => stops_resize m b n)
  | pushBack v x =>
    exact stops_onVar s v (f := fun m b => pushBack sz moved m b x) (g := fun m b => Vec.pushBack sz moved m b x)
      (fun m b => stops_pushBack m b x)
  | popBack v => exact stops_onVar s v (fun m b => stops_popBack m b)
  | clear v => exact stops_onVar s v (fun m b => stops_clear m b)
  | write v i x => exact stops_onVar s v (f := fun m b => write m b i x) (g := fun m b => (do
      let m' ← writeElem m b i x
      .ok (m', b))) (fun m b => stops_write m b i x)
  | destroy v =>
    exact (stops_getVar s.vars v).bind (fun b => (stops_destroy s.mem b).bind (fun m' =>
      .ok (by simp [State.forget, List.map_set])))

theorem stops_run (s : State α) (ops : List (Vec.Op α)) :
    StopsAs State.forget (run sz moved dflt s ops) (Vec.run sz moved dflt s.forget ops) := by
  induction ops generalizing s with
  | nil => exact .ok rfl
  | cons op ops ih => exact (stops_step s op).bind (fun s' => ih s')

/-! ## Assertions hold where the code is used correctly -/

/-- What every buffer of a vector satisfies: as many constructed objects as elements, and the chunk size of the element type
unless there is no capacity. -/
structure Good (sz : Nat) (b : BufC) : Prop where
  count : b.count = b.buf.size
  le : b.buf.size ≤ b.buf.cap
  chunk : b.chunk = sz ∨ b.buf.cap = 0

theorem good_null : Good sz BufC.null := ⟨rfl, Nat.le_refl _, .inr rfl⟩

/-- The checked step ends as the plain one, in a good buffer. -/
def Same (sz : Nat) (x : Res (Mem α × BufC)) (m : Mem α) (buf : Buf) : Prop :=
  ∃ b, x = .ok (m, b) ∧ b.buf = buf ∧ Good sz b

theorem newBuf_cap (m : Mem α) (n : Nat) : (newBuf sz m n).2.cap = n ∧ (newBuf sz m n).2.size = 0 := by
  unfold newBuf
  split <;> exact ⟨rfl, rfl⟩

theorem newBufC_ok (hsz : 0 < sz) (m : Mem α) (n : Nat) : Same sz (newBufC sz m n) (newBuf sz m n).1 (newBuf sz m n).2 := by
  refine ⟨⟨(newBuf sz m n).2, sz, 0⟩, ?_, rfl, (newBuf_cap m n).2.symm, ?_, .inl rfl⟩
  · simp [newBufC, assertThat_pos hsz]
  · simp [newBuf_cap]

theorem constructNext_inv {m m' : Mem α} {buf buf' : Buf} {x : α} (h : constructNext m buf x = .ok (m', buf')) :
    buf.ptr ≠ none ∧ buf' = { buf with size := buf.size + 1 } := by
  unfold constructNext deref at h
  split at h
  · rename_i b hb
    refine ⟨by rw [hb]; simp, ?_⟩
    simp only [Res.bind_ok] at h
    obtain ⟨c, -, h⟩ := Res.bind_eq_ok.1 h
    split at h
    · simp only [Res.ok.injEq, Prod.mk.injEq] at h
      exact h.2.symm
    · cases h
  · cases h

theorem destructLast_inv {m m' : Mem α} {buf buf' : Buf} (h : destructLast m buf = .ok (m', buf')) :
    buf.size ≠ 0 ∧ buf' = { buf with size := buf.size - 1 } := by
  unfold destructLast at h
  obtain ⟨b, -, h⟩ := Res.bind_eq_ok.1 h
  obtain ⟨c, -, h⟩ := Res.bind_eq_ok.1 h
  split at h
  · cases h
  · rename_i h0
    refine ⟨h0, ?_⟩
    split at h
    · simp only [Res.ok.injEq, Prod.mk.injEq] at h
      exact h.2.symm
    · cases h
    · cases h

theorem constructNextC_ok {m m' : Mem α} {b : BufC} {buf' : Buf} {x : α} (g : Good sz b) (hc : b.buf.size < b.buf.cap)
    (h : constructNext m b.buf x = .ok (m', buf')) : Same sz (constructNextC sz m b x) m' buf' := by
  obtain ⟨h1, rfl⟩ := constructNext_inv h
  have h2 : b.chunk = sz := by
    rcases g.chunk with h2 | h2
    · exact h2
    · omega
  refine ⟨⟨{ b.buf with size := b.buf.size + 1 }, b.chunk, b.count + 1⟩, ?_, rfl, by simp [g.count], ?_, .inl h2⟩
  · simp only [constructNextC, assertThat_pos h1, assertThat_pos hc, assertThat_pos h2, Res.bind_ok, h]
  · exact hc

theorem destructLastC_ok {m m' : Mem α} {b : BufC} {buf' : Buf} (g : Good sz b)
    (h : destructLast m b.buf = .ok (m', buf')) : Same sz (destructLastC sz m b) m' buf' := by
  obtain ⟨h1, rfl⟩ := destructLast_inv h
  have hle := g.le
  have h2 : b.chunk = sz := by
    rcases g.chunk with h2 | h2
    · exact h2
    · omega
  have h3 : b.count > 0 := by rw [g.count]; omega
  refine ⟨⟨{ b.buf with size := b.buf.size - 1 }, b.chunk, b.count - 1⟩, ?_, rfl, by simp [g.count], ?_, .inl h2⟩
  · simp only [destructLastC, assertThat_pos (show b.buf.size > 0 by omega), assertThat_pos h2, Res.bind_ok, h, assertThat_pos h3]
  · simp only
    omega

theorem destructMany_ok {k : Nat} {m m' : Mem α} {b : BufC} {buf' : Buf} (g : Good sz b)
    (h : Vec.destructMany k m b.buf = .ok (m', buf')) :
    Same sz (destructMany sz k m b) m' buf' ∧ buf'.size + k = b.buf.size ∧ buf'.cap = b.buf.cap := by
  induction k generalizing m b with
  | zero =>
    simp only [Vec.destructMany, Res.ok.injEq, Prod.mk.injEq] at h
    obtain ⟨rfl, rfl⟩ := h
    exact ⟨⟨b, rfl, rfl, g⟩, rfl, rfl⟩
  | succ k ih =>
    rw [Vec.destructMany] at h
    obtain ⟨⟨m1, buf1⟩, h1, h⟩ := Res.bind_eq_ok.1 h
    obtain ⟨b1, h2, rfl, g1⟩ := destructLastC_ok g h1
    obtain ⟨⟨b2, h3, h4, g2⟩, h5, h6⟩ := ih g1 h
    obtain ⟨h7, h8⟩ := destructLast_inv h1
    rw [h8] at h5 h6
    simp only at h5 h6
    exact ⟨⟨b2, by simp only [destructMany, h2, Res.bind_ok, h3], h4, g2⟩, by omega, h6⟩

theorem moveLoop_ok {k i : Nat} {m m' : Mem α} {b new : BufC} {buf' : Buf} (g : Good sz new)
    (hc : new.buf.size + k ≤ new.buf.cap) (h : Vec.moveLoop moved k i m b.buf new.buf = .ok (m', buf')) :
    Same sz (moveLoop sz moved k i m b new) m' buf' ∧ buf'.size = new.buf.size + k ∧ buf'.cap = new.buf.cap := by
  induction k generalizing i m new with
  | zero =>
    simp only [Vec.moveLoop, Res.ok.injEq, Prod.mk.injEq] at h
    obtain ⟨rfl, rfl⟩ := h
    exact ⟨⟨new, rfl, rfl, g⟩, rfl, rfl⟩
  | succ k ih =>
    rw [Vec.moveLoop] at h
    obtain ⟨x, hx, h⟩ := Res.bind_eq_ok.1 h
    obtain ⟨⟨m1, new1⟩, h1, h⟩ := Res.bind_eq_ok.1 h
    obtain ⟨m2, hm2, h⟩ := Res.bind_eq_ok.1 h
    obtain ⟨b1, h2, rfl, g1⟩ := constructNextC_ok g (by omega) h1
    obtain ⟨-, h8⟩ := constructNext_inv h1
    obtain ⟨⟨b2, h3, h4, g2⟩, h5, h6⟩ := ih g1 (by rw [h8]; simp only; omega) h
    rw [h8] at h5 h6
    simp only at h5 h6
    exact ⟨⟨b2, by simp only [moveLoop, hx, h2, Res.bind_ok, hm2, h3], h4, g2⟩, by omega, h6⟩

theorem constructMany_ok {k : Nat} {m m' : Mem α} {b : BufC} {buf' : Buf} (g : Good sz b)
    (hc : b.buf.size + k ≤ b.buf.cap) (h : Vec.constructMany dflt k m b.buf = .ok (m', buf')) :
    Same sz (constructMany sz dflt k m b) m' buf' ∧ buf'.size = b.buf.size + k := by
  induction k generalizing m b with
  | zero =>
    simp only [Vec.constructMany, Res.ok.injEq, Prod.mk.injEq] at h
    obtain ⟨rfl, rfl⟩ := h
    exact ⟨⟨b, rfl, rfl, g⟩, rfl⟩
  | succ k ih =>
    rw [Vec.constructMany] at h
    obtain ⟨⟨m1, new1⟩, h1, h⟩ := Res.bind_eq_ok.1 h
    obtain ⟨b1, h2, rfl, g1⟩ := constructNextC_ok g (by omega) h1
    obtain ⟨-, h8⟩ := constructNext_inv h1
    obtain ⟨⟨b2, h3, h4, g2⟩, h5⟩ := ih g1 (by rw [h8]; simp only; omega) h
    rw [h8] at h5
    simp only at h5
    exact ⟨⟨b2, by simp only [constructMany, h2, Res.bind_ok, h3], h4, g2⟩, by omega⟩

theorem fillFrom_ok {xs : List α} {m m' : Mem α} {b : BufC} {buf' : Buf} (g : Good sz b)
    (hc : b.buf.size + xs.length ≤ b.buf.cap) (h : Vec.fillFrom xs m b.buf = .ok (m', buf')) :
    Same sz (fillFrom sz xs m b) m' buf' := by
  induction xs generalizing m b with
  | nil =>
    simp only [Vec.fillFrom, Res.ok.injEq, Prod.mk.injEq] at h
    obtain ⟨rfl, rfl⟩ := h
    exact ⟨b, rfl, rfl, g⟩
  | cons x xs ih =>
    simp only [List.length_cons] at hc
    rw [Vec.fillFrom] at h
    obtain ⟨⟨m1, new1⟩, h1, h⟩ := Res.bind_eq_ok.1 h
    obtain ⟨b1, h2, rfl, g1⟩ := constructNextC_ok g (by omega) h1
    obtain ⟨-, h8⟩ := constructNext_inv h1
    obtain ⟨b2, h3, h4, g2⟩ := ih g1 (by rw [h8]; simp only; omega) h
    exact ⟨b2, by simp only [fillFrom, h2, Res.bind_ok, h3], h4, g2⟩

theorem copyLoop_ok {k i : Nat} {m m' : Mem α} {b new : BufC} {buf' : Buf} (g : Good sz new)
    (hc : new.buf.size + k ≤ new.buf.cap) (h : Vec.copyLoop k i m b.buf new.buf = .ok (m', buf')) :
    Same sz (copyLoop sz k i m b new) m' buf' := by
  induction k generalizing i m new with
  | zero =>
    simp only [Vec.copyLoop, Res.ok.injEq, Prod.mk.injEq] at h
    obtain ⟨rfl, rfl⟩ := h
    exact ⟨new, rfl, rfl, g⟩
  | succ k ih =>
    rw [Vec.copyLoop] at h
    obtain ⟨x, hx, h⟩ := Res.bind_eq_ok.1 h
    obtain ⟨⟨m1, new1⟩, h1, h⟩ := Res.bind_eq_ok.1 h
    obtain ⟨b1, h2, rfl, g1⟩ := constructNextC_ok g (by omega) h1
    obtain ⟨-, h8⟩ := constructNext_inv h1
    obtain ⟨b2, h3, h4, g2⟩ := ih g1 (by rw [h8]; simp only; omega) h
    exact ⟨b2, by simp only [copyLoop, hx, h2, Res.bind_ok, h3], h4, g2⟩

theorem freeBufC_ok {m : Mem α} {b : BufC} (g : Good sz b) (h : b.buf.size = 0) : freeBufC m b = freeBuf m b.buf := by
  rw [freeBufC, assertThat_pos (by rw [g.count, h]), Res.bind_ok]

theorem grow_ok (hsz : 0 < sz) {m m' : Mem α} {b : BufC} {buf' : Buf} {n : Nat} (g : Good sz b) (hn : b.buf.size ≤ n)
    (h : Vec.grow sz moved m b.buf n = .ok (m', buf')) : Same sz (grow sz moved m b n) m' buf' ∧ buf'.cap = n ∧ buf'.size = b.buf.size := by
  unfold Vec.grow at h
  obtain ⟨nb, h1, h2, g1⟩ := newBufC_ok hsz m n
  have hcap := newBuf_cap (sz := sz) m n
  simp only at h
  rw [← h2] at h hcap
  obtain ⟨⟨m2, new2⟩, h3, h⟩ := Res.bind_eq_ok.1 h
  obtain ⟨⟨m3, old⟩, h4, h⟩ := Res.bind_eq_ok.1 h
  obtain ⟨m4, h5, h⟩ := Res.bind_eq_ok.1 h
  simp only [Res.ok.injEq, Prod.mk.injEq] at h
  obtain ⟨rfl, rfl⟩ := h
  obtain ⟨⟨b2, k1, k2, g2⟩, k3, k4⟩ := moveLoop_ok g1 (by omega) h3
  obtain ⟨⟨b3, l1, l2, g3⟩, l3, l4⟩ := destructMany_ok g h4
  refine ⟨⟨b2, ?_, k2, g2⟩, by omega, by omega⟩
  subst k2 l2
  have e1 : b.buf.size = b2.buf.size := by omega
  have e2 : b2.buf.cap = n := by omega
  simp only [grow, h1, Res.bind_ok, k1, assertThat_pos e1, l1, assertThat_pos e2, freeBufC_ok g3 (by omega), h5]

theorem reserve_ok (hsz : 0 < sz) {m m' : Mem α} {b : BufC} {buf' : Buf} {n : Nat} (g : Good sz b)
    (h : Vec.reserve sz moved m b.buf n = .ok (m', buf')) : Same sz (reserve sz moved m b n) m' buf' ∧ n ≤ buf'.cap := by
  unfold Vec.reserve at h
  unfold reserve
  have := g.le
  split at h
  · rename_i hn
    rw [if_pos hn]
    obtain ⟨h1, h2, -⟩ := grow_ok hsz g (by omega) h
    exact ⟨h1, by omega⟩
  · rename_i hn
    rw [if_neg hn]
    simp only [Res.ok.injEq, Prod.mk.injEq] at h
    obtain ⟨rfl, rfl⟩ := h
    exact ⟨⟨b, rfl, rfl, g⟩, by omega⟩

theorem resize_ok (hsz : 0 < sz) {m m' : Mem α} {b : BufC} {buf' : Buf} {n : Nat} (g : Good sz b)
    (h : Vec.resize sz moved dflt m b.buf n = .ok (m', buf')) : Same sz (resize sz moved dflt m b n) m' buf' := by
  unfold Vec.resize at h
  obtain ⟨⟨m1, buf1⟩, h1, h⟩ := Res.bind_eq_ok.1 h
  obtain ⟨⟨m2, buf2⟩, h2, h⟩ := Res.bind_eq_ok.1 h
  obtain ⟨⟨b1, k1, rfl, g1⟩, k2⟩ := reserve_ok hsz g h1
  obtain ⟨⟨b2, l1, rfl, g2⟩, l2, l3⟩ := destructMany_ok g1 h2
  obtain ⟨⟨b3, n1, rfl, g3⟩, n2⟩ := constructMany_ok g2 (by simp only at *; omega) h
  refine ⟨b3, ?_, rfl, g3⟩
  simp only [resize, k1, Res.bind_ok, assertThat_pos (show b1.buf.cap ≥ n from k2), l1, n1]
  rw [assertThat_pos (by simp only at *; omega)]
  rfl

theorem pushBack_ok (hsz : 0 < sz) {m m' : Mem α} {b : BufC} {buf' : Buf} {x : α} (g : Good sz b)
    (h : Vec.pushBack sz moved m b.buf x = .ok (m', buf')) : Same sz (pushBack sz moved m b x) m' buf' := by
  unfold Vec.pushBack at h
  obtain ⟨⟨m1, buf1⟩, h1, h⟩ := Res.bind_eq_ok.1 h
  have key : Same sz (growForOne sz moved m b) m1 buf1 ∧ b.buf.size + 1 ≤ buf1.cap ∧ buf1.size = b.buf.size := by
    unfold Vec.growForOne at h1
    unfold growForOne
    split at h1
    · rename_i hn
      rw [if_pos hn]
      have : b.buf.size + 1 ≤ Vec.nextCapacity b.buf.size := by
        unfold Vec.nextCapacity
        split <;> omega
      obtain ⟨k1, k2, k3⟩ := grow_ok hsz g (by omega) h1
      exact ⟨k1, by omega, k3⟩
    · rename_i hn
      rw [if_neg hn]
      simp only [Res.ok.injEq, Prod.mk.injEq] at h1
      obtain ⟨rfl, rfl⟩ := h1
      exact ⟨⟨b, rfl, rfl, g⟩, by omega, rfl⟩
  obtain ⟨⟨b1, k1, rfl, g1⟩, k2, k3⟩ := key
  obtain ⟨b2, l1, l2, g2⟩ := constructNextC_ok g1 (by simp only at *; omega) h
  refine ⟨b2, ?_, l2, g2⟩
  simp only [pushBack, k1, Res.bind_ok, assertThat_pos (show b1.buf.cap ≥ b.buf.size + 1 from k2), l1]

theorem popBack_ok {m m' : Mem α} {b : BufC} {buf' : Buf} (g : Good sz b)
    (h : Vec.popBack m b.buf = .ok (m', buf')) : Same sz (popBack sz m b) m' buf' := by
  unfold popBack
  rw [assertThat_pos (destructLast_inv h).1]
  exact destructLastC_ok g h

theorem clear_ok {m m' : Mem α} {b : BufC} {buf' : Buf} (g : Good sz b)
    (h : Vec.clear m b.buf = .ok (m', buf')) : Same sz (clear sz m b) m' buf' := (destructMany_ok g h).1

theorem ofRange_ok (hsz : 0 < sz) {m m' : Mem α} {xs : List α} {buf' : Buf}
    (h : Vec.ofRange sz m xs = .ok (m', buf')) : Same sz (ofRange sz m xs) m' buf' := by
  unfold Vec.ofRange at h
  obtain ⟨nb, h1, h2, g1⟩ := newBufC_ok hsz m xs.length
  have hcap := newBuf_cap (sz := sz) m xs.length
  simp only at h
  rw [← h2] at h hcap
  obtain ⟨b2, k1, k2, g2⟩ := fillFrom_ok g1 (by omega) h
  refine ⟨b2, ?_, k2, g2⟩
  simp only [ofRange, h1, Res.bind_ok, assertThat_pos (show nb.buf.cap ≥ xs.length by omega), assertThat_pos hcap.2, k1]

theorem copyNew_ok (hsz : 0 < sz) {m m' : Mem α} {b : BufC} {buf' : Buf}
    (h : Vec.copyNew sz m b.buf = .ok (m', buf')) : Same sz (copyNew sz m b) m' buf' := by
  unfold Vec.copyNew at h
  obtain ⟨nb, h1, h2, g1⟩ := newBufC_ok hsz m b.buf.size
  have hcap := newBuf_cap (sz := sz) m b.buf.size
  simp only at h
  rw [← h2] at h hcap
  obtain ⟨b2, k1, k2, g2⟩ := copyLoop_ok g1 (by omega) h
  refine ⟨b2, ?_, k2, g2⟩
  simp only [copyNew, h1, Res.bind_ok, assertThat_pos (show nb.buf.cap ≥ b.buf.size by omega), assertThat_pos hcap.2, k1]

theorem destroy_ok {m m' : Mem α} {b : BufC} (g : Good sz b) (h : Vec.destroy m b.buf = .ok m') : destroy sz m b = .ok m' := by
  unfold Vec.destroy at h
  obtain ⟨⟨m1, buf1⟩, h1, h⟩ := Res.bind_eq_ok.1 h
  obtain ⟨⟨b1, k1, rfl, g1⟩, k2, -⟩ := destructMany_ok g h1
  simp only at h
  rw [destroy, clear, k1, Res.bind_ok]
  simp only
  rw [freeBufC_ok g1 (by omega), h]

/-- All buffers of a state are good. -/
def GoodAll (sz : Nat) (s : State α) : Prop := ∀ (v : Nat) b, s.vars[v]? = some (some b) → Good sz b

theorem getVar_ok {vars : List (Option BufC)} {v : Nat} {buf : Buf}
    (h : Vec.getVar (vars.map (Option.map BufC.buf)) v = .ok buf) :
    ∃ b, getVar vars v = .ok b ∧ b.buf = buf ∧ vars[v]? = some (some b) := by
  unfold Vec.getVar at h
  rw [List.getElem?_map] at h
  unfold getVar
  cases hv : vars[v]? with
  | none => rw [hv] at h; cases h
  | some o =>
    rw [hv] at h
    cases o with
    | none => cases h
    | some b =>
      simp only [Option.map_some, Res.ok.injEq] at h
      exact ⟨b, rfl, h, rfl⟩

theorem GoodAll.set {s : State α} (h : GoodAll sz s) (m : Mem α) (v : Nat) {o : Option BufC} (ho : ∀ b, o = some b → Good sz b) :
    GoodAll sz ⟨m, s.vars.set v o⟩ := by
  intro w b hb
  simp only [List.getElem?_set] at hb
  split at hb
  · split at hb
    · simp only [Option.some.injEq] at hb
      exact ho b hb
    · cases hb
  · exact h w b hb

theorem GoodAll.push {s : State α} (h : GoodAll sz s) (m : Mem α) {b : BufC} (hb : Good sz b) :
    GoodAll sz ⟨m, s.vars ++ [some b]⟩ := by
  intro w c hc
  simp only at hc
  by_cases hl : w < s.vars.length
  · rw [List.getElem?_append_left hl] at hc
    exact h w c hc
  · have hl' := (List.getElem?_eq_some_iff.1 hc).1
    simp at hl'
    have : w = s.vars.length := by omega
    subst this
    simp at hc
    subst hc
    exact hb

theorem onVar_ok {s : State α} {v : Nat} {t : Vec.State α} {f : Mem α → BufC → Res (Mem α × BufC)}
    {k : Mem α → Buf → Res (Mem α × Buf)} (g : GoodAll sz s)
    (hf : ∀ b m' buf', s.vars[v]? = some (some b) → k s.mem b.buf = .ok (m', buf') → Same sz (f s.mem b) m' buf')
    (h : Vec.onVar s.forget v k = .ok t) : ∃ s', onVar s v f = .ok s' ∧ s'.forget = t ∧ GoodAll sz s' := by
  unfold Vec.onVar at h
  obtain ⟨buf, h1, h⟩ := Res.bind_eq_ok.1 h
  obtain ⟨⟨m', buf'⟩, h2, h⟩ := Res.bind_eq_ok.1 h
  simp only [Res.ok.injEq] at h
  subst h
  obtain ⟨b, h3, rfl, h4⟩ := getVar_ok h1
  obtain ⟨b', h5, rfl, h6⟩ := hf b m' buf' h4 h2
  refine ⟨⟨m', s.vars.set v (some b')⟩, by simp only [onVar, h3, h5, Res.bind_ok], by simp [State.forget, List.map_set], ?_⟩
  exact g.set _ _ (fun c hc => by cases hc; exact h6)

theorem step_ok (hsz : 0 < sz) {s : State α} {op : Vec.Op α} {t : Vec.State α} (g : GoodAll sz s)
    (hw : ∀ v i x, op = .write v i x → ∀ b, s.vars[v]? = some (some b) → i < b.buf.size)
    (h : Vec.step sz moved dflt s.forget op = .ok t) :
    ∃ s', step sz moved dflt s op = .ok s' ∧ s'.forget = t ∧ GoodAll sz s' := by
  cases op with
  | create n =>
    simp only [Vec.step, Res.ok.injEq] at h
    subst h
    obtain ⟨b, h1, h2, h3⟩ := newBufC_ok hsz s.mem n
    exact ⟨⟨(newBuf sz s.mem n).1, s.vars ++ [some b]⟩, by simp only [step, h1, Res.bind_ok], by simp [State.forget, h2], g.push _ h3⟩
  | ofRange xs =>
    obtain ⟨⟨m', buf'⟩, h1, h⟩ := Res.bind_eq_ok.1 h
    simp only [Res.ok.injEq] at h
    subst h
    obtain ⟨b, h2, rfl, h3⟩ := ofRange_ok hsz h1
    exact ⟨⟨_, s.vars ++ [some b]⟩, by simp only [step]; rw [show s.mem = s.forget.mem from rfl, h2]; rfl,
      by simp [State.forget], g.push _ h3⟩
  | copyNew src =>
    obtain ⟨sb, h0, h⟩ := Res.bind_eq_ok.1 h
    obtain ⟨⟨m', buf'⟩, h1, h⟩ := Res.bind_eq_ok.1 h
    simp only [Res.ok.injEq] at h
    subst h
    obtain ⟨sb, k1, rfl, k2⟩ := getVar_ok h0
    obtain ⟨b, h2, rfl, h3⟩ := copyNew_ok hsz h1
    exact ⟨⟨_, s.vars ++ [some b]⟩, by simp only [step, k1, Res.bind_ok]; rw [show s.mem = s.forget.mem from rfl, h2]; rfl,
      by simp [State.forget], g.push _ h3⟩
  | moveNew src =>
    obtain ⟨sb, h0, h⟩ := Res.bind_eq_ok.1 h
    simp only [Res.ok.injEq] at h
    subst h
    obtain ⟨sb, k1, rfl, k2⟩ := getVar_ok h0
    exact ⟨⟨s.mem, s.vars.set src (some BufC.null) ++ [some sb]⟩, by simp only [step, k1, Res.bind_ok],
      by simp [State.forget, List.map_set, BufC.null],
      (g.set s.mem src (fun b hb => by cases hb; exact good_null)).push _ (g _ _ k2)⟩
  | copyAssign dst src =>
    obtain ⟨sb, h0, h⟩ := Res.bind_eq_ok.1 h
    obtain ⟨⟨m', buf'⟩, h1, h⟩ := Res.bind_eq_ok.1 h
    obtain ⟨db, h0', h⟩ := Res.bind_eq_ok.1 h
    obtain ⟨m'', h1', h⟩ := Res.bind_eq_ok.1 h
    simp only [Res.ok.injEq] at h
    subst h
    obtain ⟨sb, k1, rfl, k2⟩ := getVar_ok h0
    obtain ⟨db, k1', rfl, k2'⟩ := getVar_ok h0'
    obtain ⟨b, h2, rfl, h3⟩ := copyNew_ok hsz h1
    have h4 := destroy_ok (g _ _ k2') h1'
    exact ⟨⟨m'', s.vars.set dst (some b)⟩, by
      simp only [step, k1, Res.bind_ok, k1']
      rw [show s.mem = s.forget.mem from rfl, h2]
      simp only [Res.bind_ok, h4],
      by simp [State.forget, List.map_set], g.set _ _ (fun c hc => by cases hc; exact h3)⟩
  | moveAssign dst src =>
    obtain ⟨sb, h0, h⟩ := Res.bind_eq_ok.1 h
    obtain ⟨db, h0', h⟩ := Res.bind_eq_ok.1 h
    simp only [Res.ok.injEq] at h
    subst h
    obtain ⟨sb, k1, rfl, k2⟩ := getVar_ok h0
    obtain ⟨db, k1', rfl, k2'⟩ := getVar_ok h0'
    exact ⟨⟨s.mem, (s.vars.set src (some db)).set dst (some sb)⟩, by simp only [step, k1, k1', Res.bind_ok],
      by simp [State.forget, List.map_set],
      (g.set s.mem src (fun b hb => by cases hb; exact g _ _ k2')).set s.mem dst (fun b hb => by cases hb; exact g _ _ k2)⟩
  | reserve v n =>
    exact onVar_ok (f := fun m b => reserve sz moved m b n) (k := fun m b => Vec.reserve sz moved m b n) g
      (fun b m' buf' hb hk => (reserve_ok hsz (g _ _ hb) hk).1) h
  | resize v n =>
    exact onVar_ok (f := fun m b => resize sz moved dflt m b n) (k := fun m b => Vec.resize sz moved dflt m b n) g
      (fun b m' buf' hb hk => resize_ok hsz (g _ _ hb) hk) h
  | pushBack v x =>
    exact onVar_ok (f := fun m b => pushBack sz moved m b x) (k := fun m b => Vec.pushBack sz moved m b x) g
      (fun b m' buf' hb hk => pushBack_ok hsz (g _ _ hb) hk) h
  | popBack v => exact onVar_ok g (fun b m' buf' hb hk => popBack_ok (g _ _ hb) hk) h
  | clear v => exact onVar_ok g (fun b m' buf' hb hk => clear_ok (g _ _ hb) hk) h
  | write v i x =>
    refine onVar_ok (f := fun m b => write m b i x) (k := fun m b => do
      let m' ← writeElem m b i x
      .ok (m', b)) g (fun b m' buf' hb hk => ?_) h
    obtain ⟨m1, h1, h2⟩ := Res.bind_eq_ok.1 hk
    simp only [Res.ok.injEq, Prod.mk.injEq] at h2
    obtain ⟨rfl, rfl⟩ := h2
    exact ⟨b, by simp only [write, assertThat_pos (hw v i x rfl b hb), Res.bind_ok, h1], rfl, g _ _ hb⟩
  | destroy v =>
    obtain ⟨sb, h0, h⟩ := Res.bind_eq_ok.1 h
    obtain ⟨m', h1, h⟩ := Res.bind_eq_ok.1 h
    simp only [Res.ok.injEq] at h
    subst h
    obtain ⟨sb, k1, rfl, k2⟩ := getVar_ok h0
    exact ⟨⟨m', s.vars.set v none⟩, by simp only [step, k1, Res.bind_ok]; rw [show s.mem = s.forget.mem from rfl, destroy_ok (g _ _ k2) h1]; rfl,
      by simp [State.forget, List.map_set], g.set _ _ (fun b hb => by cases hb)⟩

theorem size_of {s : State α} {e : Seqs α} (hi : Vec.Inv sz s.forget e) {v : Nat} {l : List α} (hv : seqOf e v = some l) {b : BufC}
    (hb : s.vars[v]? = some (some b)) : b.buf.size = l.length := by
  obtain ⟨buf, -, h2, -, h3⟩ := hi.getVar hv
  simp only [State.forget, List.getElem?_map, hb, Option.map_some, Option.some.injEq] at h2
  rw [h2]
  exact h3.size.1

theorem write_lt {s : State α} {e e' : Seqs α} (hi : Vec.Inv sz s.forget e) {op : Vec.Op α} (h : seqStep dflt e op = some e') :
    ∀ v i x, op = .write v i x → ∀ b, s.vars[v]? = some (some b) → i < b.buf.size := by
  rintro v i x rfl b hb
  simp only [seqStep, Option.bind_eq_some_iff] at h
  obtain ⟨l, h1, h2⟩ := h
  rw [size_of hi h1 hb]
  split at h2
  · assumption
  · cases h2

theorem live_getVar {s : State α} {e : Seqs α} (hi : Vec.Inv sz s.forget e) {v : Nat} {l : List α} (hv : seqOf e v = some l) :
    ∃ b, getVar s.vars v = .ok b ∧ b.buf.size = l.length := by
  obtain ⟨buf, h1, -, -, h3⟩ := hi.getVar hv
  obtain ⟨b, k1, rfl, k2⟩ := getVar_ok h1
  exact ⟨b, k1, h3.size.1⟩

theorem step_misuse {s : State α} {e : Seqs α} (hi : Vec.Inv sz s.forget e) {op : Vec.Op α} (hl : Live e op)
    (h : seqStep dflt e op = none) : step sz moved dflt s op = .ub .assertion := by
  have live : ∀ v, v ∈ used op → ∃ l, seqOf e v = some l := fun v hv => Option.ne_none_iff_exists'.1 (hl v hv)
  cases op with
  | create n => simp [seqStep] at h
  | ofRange xs => simp [seqStep] at h
  | popBack v =>
    obtain ⟨l, hv⟩ := live v (by simp [used])
    obtain ⟨b, k1, k2⟩ := live_getVar hi hv
    simp only [seqStep, hv, Option.bind_some] at h
    split at h
    · rename_i h0
      subst h0
      simp only [step, onVar, k1, Res.bind_ok, popBack, assertThat, k2]
      rfl
    · cases h
  | write v i x =>
    obtain ⟨l, hv⟩ := live v (by simp [used])
    obtain ⟨b, k1, k2⟩ := live_getVar hi hv
    simp only [seqStep, hv, Option.bind_some] at h
    split at h
    · cases h
    · rename_i h0
      simp only [step, onVar, k1, Res.bind_ok, write, assertThat, k2, if_neg h0]
      rfl
  | copyNew src => obtain ⟨l, hv⟩ := live src (by simp [used]); simp [seqStep, hv] at h
  | moveNew src => obtain ⟨l, hv⟩ := live src (by simp [used]); simp [seqStep, hv] at h
  | copyAssign dst src =>
    obtain ⟨l, hv⟩ := live src (by simp [used])
    obtain ⟨l', hv'⟩ := live dst (by simp [used])
    simp [seqStep, hv, hv'] at h
  | moveAssign dst src =>
    obtain ⟨l, hv⟩ := live src (by simp [used])
    obtain ⟨l', hv'⟩ := live dst (by simp [used])
    simp [seqStep, hv, hv'] at h
  | reserve v n => obtain ⟨l, hv⟩ := live v (by simp [used]); simp [seqStep, hv] at h
  | resize v n => obtain ⟨l, hv⟩ := live v (by simp [used]); simp [seqStep, hv] at h
  | pushBack v x => obtain ⟨l, hv⟩ := live v (by simp [used]); simp [seqStep, hv] at h
  | clear v => obtain ⟨l, hv⟩ := live v (by simp [used]); simp [seqStep, hv] at h
  | destroy v => obtain ⟨l, hv⟩ := live v (by simp [used]); simp [seqStep, hv] at h

theorem run_ok (hsz : 0 < sz) {s : State α} {e e' : Seqs α} (g : GoodAll sz s) (hi : Vec.Inv sz s.forget e)
    {ops : List (Vec.Op α)} (hf : FitsAll sz dflt e ops) (hs : seqRun dflt e ops = some e') :
    ∃ s', run sz moved dflt s ops = .ok s' ∧ Vec.Inv sz s'.forget e' := by
  induction ops generalizing s e with
  | nil =>
    simp only [seqRun, Option.some.injEq] at hs
    subst hs
    exact ⟨s, rfl, hi⟩
  | cons op ops ih =>
    simp only [seqRun, Option.bind_eq_some_iff] at hs
    obtain ⟨e1, h1, h2⟩ := hs
    obtain ⟨t, k1, k2⟩ := Vec.step_spec hsz (moved := moved) hi hf.1 h1
    obtain ⟨s1, l1, rfl, l2⟩ := step_ok hsz g (write_lt hi h1) k1
    obtain ⟨s', n1, n2⟩ := ih l2 k2 (hf.2 e1 h1) h2
    exact ⟨s', by simp only [run, l1, Res.bind_ok, n1], n2⟩

theorem run_misuse (hsz : 0 < sz) {s : State α} {e : Seqs α} (g : GoodAll sz s) (hi : Vec.Inv sz s.forget e)
    {ops : List (Vec.Op α)} (hf : FitsAll sz dflt e ops) (hl : LiveAll dflt e ops) (hs : seqRun dflt e ops = none) :
    run sz moved dflt s ops = .ub .assertion := by
  induction ops generalizing s e with
  | nil => simp [seqRun] at hs
  | cons op ops ih =>
    cases h1 : seqStep dflt e op with
    | none =>
      rw [run, step_misuse hi hl.1 h1]
      rfl
    | some e1 =>
      simp only [seqRun, h1, Option.bind_some] at hs
      obtain ⟨t, k1, k2⟩ := Vec.step_spec hsz (moved := moved) hi hf.1 h1
      obtain ⟨s1, l1, rfl, l2⟩ := step_ok hsz g (write_lt hi h1) k1
      rw [run, l1, Res.bind_ok]
      exact ih l2 k2 (hf.2 e1 h1) (hl.2 e1 h1) hs

theorem goodAll_init : GoodAll sz (⟨Mem.empty, []⟩ : State α) := by
  intro v b hb
  simp at hb

end VecC
end Coil
