import Verif.Model.Sized
import Verif.Proofs.OneForm
import Verif.Proofs.Numerals
import Verif.Props.Access
import Verif.Props.Conv
import Verif.Props.Lexer

/-!
# Printing and resizing a vector (C101)
-/

namespace Coil
open Spec

namespace Demo

def vectorAt : VectorAt (List Int) := ⟨id, fun _ x => x⟩

/-- `data` and `data.size`; sizes above 8 are refused. -/
def PVec : Nat → FunctorDef (List Int) Nat Nat
  | 0 => dataDef vectorAt
  | k + 1 => (sizeDefs pl (fun n => if n ≤ 8 then none else some (.std (lit "vector::_M_default_append"))) vectorAt).getD k (dataDef vectorAt)

def startVec : Res (Sys Reg (List Int) Nat Nat) := do
  let m ← UMap.create (djb2 true) 1
  let s ← bindingsAdd ops ⟨m, some (lexRead (LexCfg.default true)), [3, 1, 4], [], 0, [], []⟩ (lit "data") [(0, 0)]
  bindingsAdd ops s (lit "data.size") [(1, 0), (2, 0)]

def execVec (lines : List String) : Res (List (Option (Answer × Bytes)) × List Int) := do
  let s ← startVec
  let (s', os) ← executeAll PVec ops true 3 s (lines.map fun t => .line (lit t))
  .ok (os.map answer, s'.user)

end Demo

variable {S W C D : Type} {P : C → FunctorDef W C D} {ops : RegOps S C D} {catching : Bool} {fuel depth : Nat}
  {s : Sys S W C D} {req : Request} {name : Bytes} {d0 d1 : FunctorDef W C D} {g f : Inst C D} {named : List Named} {v : Value}
  {pl : Platform} {refuse : Nat → Option Exn} {at_ : VectorAt W}

theorem printLoop_runs {ne : Nested S W C D} {l : List Named} : ∀ (xs : List Int) (past : List CtxEvent) (k : Prog W C D Unit)
    (s s' : Sys S W C D) (es : List CtxEvent) (e : End Unit),
    Runs ops ne f l (past ++ xs.map fun x => CtxEvent.log (intDec x ++ lit " ")) k s es e s' →
    Runs ops ne f l past (printLoop xs k) s ((xs.map fun x => CtxEvent.log (intDec x ++ lit " ")) ++ es) e s'
  | [], past, k, s, s', es, e, h => by
    show Runs ops ne f l past k s es e s'
    simpa using h
  | x :: xs, past, k, s, s', es, e, h => by
    refine .log (printLoop_runs xs _ k s s' es e ?_)
    simpa using h

theorem outputOf_logs (ts : List Bytes) (es : List CtxEvent) : outputOf (ts.map CtxEvent.log ++ es) = ts.flatten ++ outputOf es := by
  unfold outputOf
  induction ts with
  | nil => rfl
  | cons t ts ih => simp only [List.map_cons, List.cons_append, List.flatten_cons, ih, List.append_assoc]; rfl

theorem errorsOf_logs (ts : List Bytes) (es : List CtxEvent) : errorsOf (ts.map CtxEvent.log ++ es) = errorsOf es := by
  induction ts with
  | nil => rfl
  | cons t ts ih => exact ih

theorem intDec_space (x : Int) : (32 : Byte) ∉ intDec x := by
  have h : ∀ n, (32 : Byte) ∉ natDec n := by
    intro n hm
    have := (decimal_digits (natDec_decimal n)).2.1 _ hm
    revert this
    decide
  cases x with
  | ofNat n => exact h n
  | negSucc n =>
    intro hm
    rcases List.mem_cons.1 hm with hm | hm
    · exact absurd hm (by decide)
    · exact h _ hm

theorem intDec_inj {x y : Int} (h : intDec x = intDec y) : x = y :=
  C12_numeral_unique (intDec_numeral x) (h ▸ intDec_numeral y)

/-! ## C101 -/

/-- **C101.** `data` prints all elements and changes nothing. -/
theorem C101_print (h : OneForm P ops s name (dataDef at_) f) (hm : Means s.lexer req ⟨name, [], named⟩) :
    ∃ r, (nested P ops catching (fuel + 1) depth).exec s req = .ok ({ s with calls := s.calls ++ [(depth, f.id)] }, .ok r) ∧
      r.errors = [] ∧ r.returnValue = none ∧
      r.output = lit "{ " ++ ((at_.read s.user).map fun x => intDec x ++ lit " ").flatten ++ lit "}" := by
  have hr : Runs ops (nested P ops catching fuel (depth + 1)) f named [] ((dataDef (C := C) (D := D) at_).body ())
      { s with calls := s.calls ++ [(depth, f.id)] }
      (CtxEvent.log (lit "{ ") :: (((at_.read s.user).map fun x => CtxEvent.log (intDec x ++ lit " ")) ++ [CtxEvent.log (lit "}")]))
      (.ret ()) { s with calls := s.calls ++ [(depth, f.id)] } :=
    .log (.get (printLoop_runs _ _ _ _ _ _ _ (.log .ret)))
  have he : (CtxEvent.log (lit "{ ") :: (((at_.read s.user).map fun x => CtxEvent.log (intDec x ++ lit " ")) ++ [CtxEvent.log (lit "}")])) =
      (lit "{ " :: (at_.read s.user).map fun x => intDec x ++ lit " ").map CtxEvent.log ++ [CtxEvent.log (lit "}")] := by
    simp [Function.comp_def]
  rw [he] at hr
  refine ⟨_, h.returns hm (xs := ()) trivial hr, ?_, ?_, ?_⟩
  · simp only [errorsOf_logs]
    rfl
  · simp only [errorsOf_logs]
    rfl
  · simp only [outputOf_logs, List.flatten_cons]
    rfl

/-- **C101.** `data.size n` keeps the first `n` elements, or all and appends zeros up to `n`; the answer is `n`. -/
theorem C101_resize (hd : sizeDefs pl refuse at_ = [d0, d1]) (h : TwoForms P ops s name d0 d1 g f)
    (hm : Means s.lexer req ⟨name, [v], named⟩) (hat : ∀ u x, at_.read (at_.write u x) = x) {n : Nat}
    (hv : Reads pl (.int .ulong) v (n : Int)) (hr : n ≤ (at_.read s.user).length ∨ refuse n = none) :
    ∃ out data, (nested P ops catching (fuel + 1) depth).exec s req =
        .ok ({ s with calls := s.calls ++ [(depth, f.id)], user := at_.write s.user data }, out) ∧
      answerOf out = some ⟨[], some (natDec n)⟩ ∧ data.length = n ∧
      (∀ i (hi : i < data.length), data[i] = (at_.read s.user)[i]?.getD 0) := by
  have hx : (intConv pl .ulong).fromString v = .ok (.ok (n : Int)) := reads_converts pl (.int .ulong) trivial v _ hv
  have hnone : (if n ≤ (at_.read s.user).length then none else refuse n) = none := by
    rcases hr with hr | hr
    · rw [if_pos hr]
    · rw [hr]; split <;> rfl
  generalize hdat : (at_.read s.user).take n ++ List.replicate (n - (at_.read s.user).length) (0 : Int) = data
  have hlen : data.length = n := by
    subst hdat
    simp only [List.length_append, List.length_take, List.length_replicate]
    omega
  have h1 : Runs ops (nested P ops catching fuel (depth + 1)) f named [] (resizeProg refuse at_ (Int.toNat (n : Int)))
      { s with calls := s.calls ++ [(depth, f.id)] } [] (.ret ())
      { s with calls := s.calls ++ [(depth, f.id)], user := at_.write s.user data } := by
    refine .get ?_
    simp only [Int.toNat_natCast, hnone, hdat]
    exact .set .ret
  have h2 : Runs ops (nested P ops catching fuel (depth + 1)) f named [] (.get fun w => .ret ((at_.read w).length : Int))
      { s with calls := s.calls ++ [(depth, f.id)], user := at_.write s.user data } [] (.ret (n : Int))
      { s with calls := s.calls ++ [(depth, f.id)], user := at_.write s.user data } := by
    have : ((at_.read (at_.write s.user data)).length : Int) = (n : Int) := by rw [hat, hlen]
    refine .get ?_
    rw [this]
    exact .ret
  refine ⟨_, data, (C36_write hd h hm rfl rfl hx).2 (.inr ⟨[], _, [], .ret (n : Int), h1, h2, rfl⟩), rfl, hlen, ?_⟩
  intro i hi
  subst hdat
  rw [List.getElem_append]
  split
  · rename_i hi'
    simp only [List.length_take] at hi'
    rw [List.getElem_take, List.getElem?_eq_getElem (by omega)]
    rfl
  · rename_i hi'
    simp only [List.length_take] at hi'
    rw [List.getElem_replicate, List.getElem?_eq_none (by omega)]
    rfl

/-- **C101.** A size that cannot be had leaves the vector as it is, and the exception is reported. -/
theorem C101_refused (hd : sizeDefs pl refuse at_ = [d0, d1]) (h : TwoForms P ops s name d0 d1 g f)
    (hm : Means s.lexer req ⟨name, [v], named⟩) {n : Nat}
    (hv : Reads pl (.int .ulong) v (n : Int)) (hl : (at_.read s.user).length < n) {what : Bytes} (hr : refuse n = some (.std what)) :
    ∃ out, (nested P ops true (fuel + 1) depth).exec s req = .ok ({ s with calls := s.calls ++ [(depth, f.id)] }, out) ∧
      answerOf out = some ⟨[lit "Exception caught during execution: " ++ cstr what], none⟩ := by
  have hx : (intConv pl .ulong).fromString v = .ok (.ok (n : Int)) := reads_converts pl (.int .ulong) trivial v _ hv
  have h1 : Runs ops (nested P ops true fuel (depth + 1)) f named [] (resizeProg refuse at_ (Int.toNat (n : Int)))
      { s with calls := s.calls ++ [(depth, f.id)] } [] (.exn (.std what)) { s with calls := s.calls ++ [(depth, f.id)] } := by
    refine .get ?_
    have : ¬ n ≤ (at_.read s.user).length := by omega
    simp only [Int.toNat_natCast, if_neg this, hr]
    exact .throw
  exact ⟨_, (C36_write hd h hm rfl rfl hx).2 (.inl ⟨[], _, h1, rfl⟩), rfl⟩

/-- **C101.** What `data` prints determines the elements. -/
theorem C101_injective : ∀ xs ys : List Int, (lit "{ " ++ (xs.map fun x => intDec x ++ lit " ").flatten ++ lit "}" =
    lit "{ " ++ (ys.map fun x => intDec x ++ lit " ").flatten ++ lit "}") → xs = ys := by
  intro xs ys h
  rw [List.append_left_inj, List.append_right_inj] at h
  have split : ∀ (a b c d : Bytes), (32 : Byte) ∉ a → (32 : Byte) ∉ c → a ++ 32 :: b = c ++ 32 :: d → a = c ∧ b = d := by
    intro a
    induction a with
    | nil =>
      intro b c d _ hc h
      cases c with
      | nil => simpa using h
      | cons y c =>
        simp only [List.nil_append, List.cons_append, List.cons.injEq] at h
        exact absurd (by rw [← h.1]; simp) hc
    | cons x a ih =>
      intro b c d ha hc h
      cases c with
      | nil =>
        simp only [List.nil_append, List.cons_append, List.cons.injEq] at h
        exact absurd (by rw [h.1]; simp) ha
      | cons y c =>
        simp only [List.cons_append, List.cons.injEq] at h
        obtain ⟨rfl, h⟩ := h
        obtain ⟨rfl, rfl⟩ := ih b c d (fun h => ha (by simp [h])) (fun h => hc (by simp [h])) h
        exact ⟨rfl, rfl⟩
  have one : ∀ x : Int, intDec x ++ lit " " = intDec x ++ [32] := fun _ => rfl
  induction xs generalizing ys with
  | nil =>
    cases ys with
    | nil => rfl
    | cons y ys => simp [one] at h
  | cons x xs ih =>
    cases ys with
    | nil => simp [one] at h
    | cons y ys =>
      simp only [List.map_cons, List.flatten_cons, one, List.append_assoc, List.singleton_append] at h
      obtain ⟨h1, h2⟩ := split _ _ _ _ (intDec_space x) (intDec_space y) h
      rw [intDec_inj h1, ih ys h2]

example : Demo.execVec ["data", "data.size", "data.size 7", "data", "data.size 2", "data", "data.size 9", "data.size -1", "data.size 4"] =
    .ok ([some (⟨[], none⟩, lit "{ 3 1 4 }"), some (⟨[], some (lit "3")⟩, []), some (⟨[], some (lit "7")⟩, []),
      some (⟨[], none⟩, lit "{ 3 1 4 0 0 0 0 }"), some (⟨[], some (lit "2")⟩, []), some (⟨[], none⟩, lit "{ 3 1 }"),
      some (⟨[lit "Exception caught during execution: vector::_M_default_append"], none⟩, []),
      some (⟨[lit "Unable to convert '-1' to type 'unsigned long'"], none⟩, []), some (⟨[], some (lit "4")⟩, [])], [3, 1, 0, 0]) := by
  decide +kernel

end Coil
