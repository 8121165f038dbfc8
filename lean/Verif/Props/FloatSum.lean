import Verif.Proofs.FloatSum
import Verif.Proofs.OneForm
import Verif.Props.Access
import Verif.Props.Lexer

/-!
# Commands that compute with floating-point numbers (C99)
-/

namespace Coil
open Spec Floats

namespace Demo

def floatUnit : FunctorDef Unit Nat Nat := ⟨[], Unit, lit "void", none, fun _ => .ret ()⟩

/-- `sum_all` and `add`. -/
def PFl : Nat → FunctorDef Unit Nat Nat
  | 0 => sumAllDef (fun _ _ => true) (fun _ _ => true)
  | 1 => addDef (fun _ _ => true) (fun _ _ => true)
  | _ => floatUnit

def startFl : Res (Sys Reg Unit Nat Nat) := do
  let m ← UMap.create (djb2 true) 1
  let s ← bindingsAdd ops ⟨m, some (lexRead (LexCfg.default true)), (), [], 0, [], []⟩ (lit "sum_all") [(0, 0)]
  bindingsAdd ops s (lit "add") [(1, 0)]

def execFl (lines : List String) : Res (List (Option (Answer × Bytes))) := do
  let s ← startFl
  let (_, os) ← executeAll PFl ops true 3 s (lines.map fun t => .line (lit t))
  .ok (os.map answer)

end Demo

variable {S W C D : Type} {P : C → FunctorDef W C D} {ops : RegOps S C D} {catching : Bool} {fuel depth : Nat}
  {s : Sys S W C D} {req req' : Request} {name : Bytes} {f : Inst C D} {v : Value} {named : List Named}
  {tiny : Nat → Nat → Bool} {nan : Fl → Fl → Bool}

/-! ## C99 -/

/-- **C99.** `sum_all` of texts of numbers answers a text of a number that is near their sum: the distance is at most
`((1 + 5/10^6)(1 + 2^-24)^(n+1) - 1)` times the sum of the magnitudes, plus `10^-6`. -/
theorem C99_sum (h : OneForm P ops s name (sumAllDef tiny nan) f) (hm : Means s.lexer req ⟨name, [v], named⟩)
    {qs : List ℚ} (hv : Forall2 ReadsNumber v.subvalues qs) (hq : ∀ q ∈ qs, NotTiny .single q)
    (hg : absSum qs * (1 + roundoff .single) ^ (qs.length + 1) ≤ greatest .single) :
    ∃ out text r, (nested P ops catching (fuel + 1) depth).exec s req = .ok ({ s with calls := s.calls ++ [(depth, f.id)] }, out) ∧
      answerOf out = some ⟨[], some text⟩ ∧ ReadsNumber text r ∧
      |r - qs.sum| ≤ absSum qs * ((1 + 5 / 10 ^ 6) * (1 + roundoff .single) ^ (qs.length + 1) - 1) + 1 / 10 ^ 6 := by
  obtain ⟨xs, h1, r, h2, h3⟩ := sum_error (tiny := tiny) (nan := nan) proper_single (lit "float") hv hq hg
  have hc : ConvertTo (sumAllDef (W := W) (C := C) (D := D) tiny nan).params [v] (xs, ()) :=
    ⟨(C17_vector_ok_iff (singleConv tiny) rfl v xs).2 h1, trivial⟩
  exact ⟨_, _, r, h.returns hm hc (es := []) .ret, rfl, h2, h3⟩

/-- **C99.** `sum_all` of texts of whole numbers is exact if their magnitudes add up to at most 999999: the answer is the decimal text of
the sum. -/
theorem C99_whole (h : OneForm P ops s name (sumAllDef tiny nan) f) (hm : Means s.lexer req ⟨name, [v], named⟩)
    {zs : List Int} (hv : Forall2 (fun t (z : Int) => ReadsNumber t z) v.subvalues zs) (hz : (zs.map Int.natAbs).sum ≤ 999999) :
    ∃ out, (nested P ops catching (fuel + 1) depth).exec s req = .ok ({ s with calls := s.calls ++ [(depth, f.id)] }, out) ∧
      answerOf out = some ⟨[], some (intDec zs.sum)⟩ := by
  have h24 : (999999 : Nat) ≤ 2 ^ Fmt.single.prec := by decide
  have hmem : ∀ (zs : List Int), ∀ z ∈ zs, z.natAbs ≤ (zs.map Int.natAbs).sum := by
    intro zs
    induction zs with
    | nil => simp
    | cons a zs ih =>
      intro z hz
      simp only [List.map_cons, List.sum_cons]
      rcases List.mem_cons.1 hz with rfl | hz
      · omega
      · have := ih z hz
        omega
  obtain ⟨xs, h1, h2⟩ := reads_whole (tiny := tiny) proper_single (by decide) (by decide) (lit "float") hv fun z h => by
    have := hmem zs z h
    omega
  obtain ⟨a1, a2⟩ := accumulate_whole (nan := nan) proper_single (by decide) (by decide) xs zs (.fin false 0 Fmt.single.emin) 0 h2
    (zero_finite proper_single false) (by rw [val_zero]; rfl) (by simp only [Int.natAbs_zero, Nat.zero_add]; omega)
  rw [Int.zero_add] at a2
  have hb : zs.sum.natAbs ≤ 999999 := by
    refine le_trans ?_ hz
    clear hz h2 hv a2
    induction zs with
    | nil => simp
    | cons a zs ih =>
      simp only [List.map_cons, List.sum_cons]
      omega
  have ht := toString_whole (tiny := tiny) (lit "float") a1 a2 hb
  have hc : ConvertTo (sumAllDef (W := W) (C := C) (D := D) tiny nan).params [v] (xs, ()) :=
    ⟨(C17_vector_ok_iff (singleConv tiny) rfl v xs).2 h1, trivial⟩
  refine ⟨_, h.returns hm hc (es := []) .ret, ?_⟩
  rw [← ht]
  rfl

/-- **C99.** `add` of two texts of numbers. -/
theorem C99_add (h : OneForm P ops s name (addDef tiny nan) f) {t u : Bytes} (hm : Means s.lexer req ⟨name, [⟨[t]⟩, ⟨[u]⟩], named⟩)
    {p q : ℚ} (hp : ReadsNumber t p) (hq : ReadsNumber u q) (hp' : NotTiny .single p) (hq' : NotTiny .single q)
    (hg : (|p| + |q|) * (1 + roundoff .single) ^ 2 ≤ greatest .single) :
    ∃ out text r, (nested P ops catching (fuel + 1) depth).exec s req = .ok ({ s with calls := s.calls ++ [(depth, f.id)] }, out) ∧
      answerOf out = some ⟨[], some text⟩ ∧ ReadsNumber text r ∧
      |r - (p + q)| ≤ (|p| + |q|) * ((1 + 5 / 10 ^ 6) * (1 + roundoff .single) ^ 2 - 1) + 1 / 10 ^ 6 := by
  obtain ⟨x, y, h1, h2, r, h3, h4⟩ := add_error (tiny := tiny) (nan := nan) proper_single (lit "float") hp hq hp' hq' hg
  have hc : ConvertTo (addDef (W := W) (C := C) (D := D) tiny nan).params [⟨[t]⟩, ⟨[u]⟩] (x, y, ()) := ⟨h1, h2, trivial⟩
  exact ⟨_, _, r, h.returns hm hc (es := []) .ret, rfl, h3, h4⟩

/-- **C99.** `add` of two finite numbers does not depend on their order. -/
theorem C99_commutes (h : OneForm P ops s name (addDef tiny nan) f) {t u : Bytes}
    (hm : Means s.lexer req ⟨name, [⟨[t]⟩, ⟨[u]⟩], named⟩) (hm' : Means s.lexer req' ⟨name, [⟨[u]⟩, ⟨[t]⟩], named⟩)
    {p q : ℚ} (hp : ReadsNumber t p) (hq : ReadsNumber u q) (hp' : NotTiny .single p) (hq' : NotTiny .single q)
    (hpg : |p| ≤ greatest .single) (hqg : |q| ≤ greatest .single) :
    ∃ out out' text, (nested P ops catching (fuel + 1) depth).exec s req = .ok ({ s with calls := s.calls ++ [(depth, f.id)] }, out) ∧
      (nested P ops catching (fuel + 1) depth).exec s req' = .ok ({ s with calls := s.calls ++ [(depth, f.id)] }, out') ∧
      answerOf out = some ⟨[], some text⟩ ∧ answerOf out' = some ⟨[], some text⟩ := by
  obtain ⟨x, x1, x2, _⟩ := read_error (tiny := tiny) proper_single (lit "float") hp hp' hpg
  obtain ⟨y, y1, y2, _⟩ := read_error (tiny := tiny) proper_single (lit "float") hq hq' hqg
  have hc : ConvertTo (addDef (W := W) (C := C) (D := D) tiny nan).params [⟨[t]⟩, ⟨[u]⟩] (x, y, ()) := ⟨x1, y1, trivial⟩
  have hc' : ConvertTo (addDef (W := W) (C := C) (D := D) tiny nan).params [⟨[u]⟩, ⟨[t]⟩] (y, x, ()) := ⟨y1, x1, trivial⟩
  refine ⟨_, _, _, h.returns hm hc (es := []) .ret, h.returns hm' hc' (es := []) .ret, rfl, ?_⟩
  rw [add_comm_fin x2 y2]
  rfl

/-- **C99, negation.** The answer of `sum_all` depends on the order of the numbers, it can be infinite though the sum is 0, and a number can
be lost altogether. -/
theorem C99_order_false :
    Demo.execFl ["sum_all (16777216 1 -16777216)", "sum_all (16777216 -16777216 1)", "sum_all (3e38 3e38 -3e38 -3e38)",
        "sum_all (3e38 -3e38 3e38 -3e38)", "add 10000000 0.4"] =
      .ok [some (⟨[], some (lit "0")⟩, []), some (⟨[], some (lit "1")⟩, []), some (⟨[], some (lit "inf")⟩, []),
        some (⟨[], some (lit "0")⟩, []), some (⟨[], some (lit "1e+07")⟩, [])] := by
  decide +kernel

example : Demo.execFl ["sum_all (1 2 3.5)", "sum_all ()", "sum_all (0.1 0.2)", "add 1 -2", "add 0.1 0.2", "add inf -inf", "sum_all (1 two)",
      "sum_all (500000 499999)", "add 999999 2"] =
    .ok [some (⟨[], some (lit "6.5")⟩, []), some (⟨[], some (lit "0")⟩, []), some (⟨[], some (lit "0.3")⟩, []),
      some (⟨[], some (lit "-1")⟩, []), some (⟨[], some (lit "0.3")⟩, []), some (⟨[], some (lit "-nan")⟩, []),
      some (⟨[lit "Unable to convert '1 two' to type 'vector<float>': Unable to convert 'two' to type 'float'"], none⟩, []),
      some (⟨[], some (lit "999999")⟩, []), some (⟨[], some (lit "1e+06")⟩, [])] := by
  decide +kernel

/-- The hypotheses of `C99_sum` hold for a line of the example. -/
example : ∃ s f, Demo.startFl = .ok s ∧ OneForm Demo.PFl Demo.ops s (lit "sum_all") (sumAllDef (fun _ _ => true) (fun _ _ => true)) f ∧
    Means s.lexer (.line (lit "sum_all 7,-2")) ⟨lit "sum_all", [⟨[lit "7", lit "-2"]⟩], []⟩ := by
  refine ⟨_, ⟨0, 0, 0⟩, rfl, ⟨by decide, ?_, rfl, by simp [idsOf]⟩, ⟨_, rfl, ?_⟩⟩
  · have : (match Demo.startFl with
      | .ok s => Demo.ops.find s.reg (lit "sum_all")
      | _ => .diverge) = .ok (some ⟨lit "sum_all", [⟨0, 0, 0⟩]⟩) := by decide +kernel
    exact this
  · have : (match lexRead (LexCfg.default true) (lit "sum_all 7,-2") with
      | .ok (.ok i) => decide (i = ⟨lit "sum_all", [⟨[lit "7", lit "-2"]⟩], []⟩)
      | _ => false) = true := by decide +kernel
    revert this
    cases lexRead (LexCfg.default true) (lit "sum_all 7,-2") with
    | ok r => cases r with
      | ok i => intro h; simp at h; rw [h]
      | error e => simp
    | ub w => simp
    | diverge => simp

end Coil
