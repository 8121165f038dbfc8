import Verif.Spec.Passing

/-! # Lemmas about the travel of argument objects -/

namespace Coil
namespace Pass
open Spec

variable {α : Type}

theorem Rules_append (w : World α) (a b : List (Ev α)) : Rules w (a ++ b) = (Rules w a).bind (fun w' => Rules w' b) := by
  induction a generalizing w with
  | nil => rfl
  | cons e a ih =>
    simp only [List.cons_append, Rules]
    cases Rule w e with
    | none => rfl
    | some w' => exact ih w'

/-- The log so far obeys the rules and leads to `w`. -/
structure Inv (s : St α) (w : World α) : Prop where
  rules : Rules World.start s.log = some w
  size : w.slots.length = s.next

theorem Inv.emit {s : St α} {w w' : World α} {e : Ev α} (h : Inv s w) (he : Rule w e = some w') :
    Rules World.start (s.emit e).log = some w' := by
  simp [St.emit, Rules_append, h.rules, Rules, he]

/-- The object exists. -/
def There (w : World α) (o : Nat) : Prop := ∃ sl, w.slots[o]? = some sl ∧ sl ≠ .gone

/-- The objects have these values. -/
def Live (w : World α) : List Nat → List α → Prop
  | [], [] => True
  | o :: os, x :: xs => w.slots[o]? = some (.live x) ∧ Live w os xs
  | _, _ => False

theorem Live.values {w : World α} : {os : List Nat} → {xs : List α} → Live w os xs → w.values os = some xs
  | [], [], _ => rfl
  | _ :: _, _ :: _, h => by simp [World.values, h.1, h.2.values]
  | [], _ :: _, h => h.elim
  | _ :: _, [], h => h.elim

theorem Live.length {w : World α} : {os : List Nat} → {xs : List α} → Live w os xs → os.length = xs.length
  | [], [], _ => rfl
  | _ :: _, _ :: _, h => by simp [h.2.length]
  | [], _ :: _, h => h.elim
  | _ :: _, [], h => h.elim

theorem Live.lt {w : World α} : {os : List Nat} → {xs : List α} → Live w os xs → ∀ o ∈ os, o < w.slots.length
  | [], [], _, _, ho => by simp at ho
  | o :: os, _ :: _, h, p, hp => by
    rcases List.mem_cons.1 hp with rfl | hp
    · exact (List.getElem?_eq_some_iff.1 h.1).1
    · exact h.2.lt p hp
  | [], _ :: _, h, _, _ => h.elim
  | _ :: _, [], h, _, _ => h.elim

theorem Live.there {w : World α} : {os : List Nat} → {xs : List α} → Live w os xs → ∀ o ∈ os, There w o
  | [], [], _, _, ho => by simp at ho
  | o :: os, x :: _, h, p, hp => by
    rcases List.mem_cons.1 hp with rfl | hp
    · exact ⟨_, h.1, by simp⟩
    · exact h.2.there p hp
  | [], _ :: _, h, _, _ => h.elim
  | _ :: _, [], h, _, _ => h.elim

theorem Live.congr {w w' : World α} : {os : List Nat} → {xs : List α} → Live w os xs →
    (∀ o ∈ os, w'.slots[o]? = w.slots[o]?) → Live w' os xs
  | [], [], _, _ => trivial
  | o :: os, x :: xs, h, hc =>
    ⟨(hc o (by simp)).trans h.1, h.2.congr fun p hp => hc p (by simp [hp])⟩
  | [], _ :: _, h, _ => h.elim
  | _ :: _, [], h, _ => h.elim

/-- What later steps need to know: nothing old was destroyed, everything new was. -/
structure Settled (w w' : World α) : Prop where
  size : w.slots.length ≤ w'.slots.length
  old : ∀ i, i < w.slots.length → (There w' i ↔ There w i)
  new : ∀ i, w.slots.length ≤ i → ¬ There w' i

/-- The counters. -/
structure Counts (s s' : St α) (makes' moves' : Nat) : Prop where
  copies : Spec.copies s'.log = Spec.copies s.log
  makes : Spec.makes s'.log = Spec.makes s.log + makes'
  moves : Spec.moves s'.log = Spec.moves s.log + moves'

theorem Counts.trans {s s' s'' : St α} {a b c d : Nat} (h : Counts s s' a b) (h' : Counts s' s'' c d) :
    Counts s s'' (a + c) (b + d) :=
  ⟨h'.1.trans h.1, by rw [h'.2, h.2]; omega, by rw [h'.3, h.3]; omega⟩

theorem Counts.refl (s : St α) : Counts s s 0 0 := ⟨rfl, rfl, rfl⟩

theorem Counts.log_eq {s s' : St α} {t : St α} {a b : Nat} (h : Counts s s' a b) (he : t.log = s'.log) : Counts s t a b :=
  ⟨by rw [he]; exact h.1, by rw [he]; exact h.2, by rw [he]; exact h.3⟩

theorem counts_make (s : St α) (o : Nat) (x : α) : Counts s (s.emit (.make o x)) 1 0 := by
  constructor <;> simp [St.emit, copies, makes, moves]

theorem counts_move (s : St α) (o p : Nat) : Counts s (s.emit (.move o p)) 0 1 := by
  constructor <;> simp [St.emit, copies, makes, moves]

theorem counts_failed (s : St α) (o : Nat) : Counts s (s.emit (.failed o)) 0 0 := by
  constructor <;> simp [St.emit, copies, makes, moves]

theorem counts_destroy (s : St α) (o : Nat) : Counts s (s.emit (.destroy o)) 0 0 := by
  constructor <;> simp [St.emit, copies, makes, moves]

theorem counts_call (s : St α) (os : List Nat) : Counts s (s.emit (.call os)) 0 0 := by
  constructor <;> simp [St.emit, copies, makes, moves]

theorem counts_take (s : St α) (o : Nat) : Counts s (s.emit (.take o)) 0 0 := by
  constructor <;> simp [St.emit, copies, makes, moves]

theorem counts_destroyAll (os : List Nat) (s : St α) : Counts s (destroyAll os s) 0 0 := by
  induction os generalizing s with
  | nil => exact Counts.refl s
  | cons o os ih => exact (counts_destroy s o).trans (ih _)

theorem there_lt {w : World α} {o : Nat} (h : There w o) : o < w.slots.length := by
  obtain ⟨sl, h, _⟩ := h
  exact (List.getElem?_eq_some_iff.1 h).1

theorem inv_destroy {s : St α} {w : World α} {o : Nat} (h : Inv s w) (ho : There w o) :
    Inv (s.emit (.destroy o)) { w with slots := w.slots.set o .gone } := by
  obtain ⟨sl, hs, hg⟩ := ho
  refine ⟨h.emit ?_, by simpa [St.emit] using h.size⟩
  cases sl with
  | live x => simp [Rule, hs]
  | husk => simp [Rule, hs]
  | gone => exact absurd rfl hg

theorem inv_destroyAll (os : List Nat) : ∀ {s : St α} {w : World α}, Inv s w → os.Nodup → (∀ o ∈ os, There w o) →
    ∃ w', Inv (destroyAll os s) w' ∧ w'.calls = w.calls ∧ w'.slots.length = w.slots.length ∧
      (∀ i ∈ os, ¬ There w' i) ∧ (∀ i, i ∉ os → w'.slots[i]? = w.slots[i]?) := by
  induction os with
  | nil => intro s w h _ _; exact ⟨w, h, rfl, rfl, by simp, by simp⟩
  | cons o os ih =>
    intro s w h hn ho
    have hn' := List.nodup_cons.1 hn
    obtain ⟨w', h1, h2, h3, h4, h5⟩ := ih (inv_destroy h (ho o (by simp))) hn'.2 (by
      intro p hp
      obtain ⟨sl, hs, hg⟩ := ho p (by simp [hp])
      have : o ≠ p := fun e => hn'.1 (e ▸ hp)
      exact ⟨sl, by simp [this, hs], hg⟩)
    refine ⟨w', h1, h2, by simpa using h3, ?_, ?_⟩
    · intro i hi
      rcases List.mem_cons.1 hi with rfl | hi
      · rintro ⟨sl, hs, hg⟩
        rw [h5 _ hn'.1] at hs
        simp [List.getElem?_set] at hs
        exact hg hs.2.symm
      · exact h4 i hi
    · intro i hi
      have : o ≠ i := fun e => hi (by simp [e])
      rw [h5 i (fun hm => hi (by simp [hm]))]
      simp [this]

/-- A move construction. -/
theorem moveTo_cases (fails : Nat → Bool) {s : St α} {w : World α} {o : Nat} {x : α} (h : Inv s w)
    (ho : w.slots[o]? = some (.live x)) :
    (fails s.tries = true ∧ (moveTo fails o s).2 = none ∧
      Inv (moveTo fails o s).1 { w with slots := w.slots.set o .husk } ∧ Counts s (moveTo fails o s).1 0 0) ∨
    (fails s.tries = false ∧ (moveTo fails o s).2 = some w.slots.length ∧
      Inv (moveTo fails o s).1 { w with slots := w.slots.set o .husk ++ [.live x] } ∧ Counts s (moveTo fails o s).1 0 1) := by
  cases hf : fails s.tries with
  | true =>
    refine .inl ⟨rfl, ?_⟩
    simp only [moveTo, hf, if_true]
    refine ⟨trivial, ⟨?_, ?_⟩, (counts_failed s o).log_eq rfl⟩
    · exact h.emit (by simp [Rule, ho])
    · simpa [St.emit] using h.size
  | false =>
    refine .inr ⟨rfl, ?_⟩
    simp only [moveTo, hf, Bool.false_eq_true, if_false]
    refine ⟨by rw [h.size], ⟨?_, ?_⟩, (counts_move s o _).log_eq rfl⟩
    · exact h.emit (by simp [Rule, ho, h.size])
    · simp [h.size]

theorem there_set_husk {w : World α} {o i : Nat} (c : List (List α)) (ho : There w o) :
    There ⟨w.slots.set o .husk, c⟩ i ↔ There w i := by
  simp only [There, List.getElem?_set]
  by_cases e : o = i
  · subst e
    have := there_lt ho
    simp only [if_true, this]
    exact ⟨fun _ => ho, fun _ => ⟨.husk, rfl, by simp⟩⟩
  · simp [e]

theorem there_push {w : World α} {o i : Nat} {x : α} (c : List (List α)) (ho : There w o) (hi : i < w.slots.length) :
    There ⟨w.slots.set o .husk ++ [.live x], c⟩ i ↔ There w i := by
  rw [← there_set_husk c ho]
  simp only [There]
  rw [List.getElem?_append_left (by simpa using hi)]

/-- Binding parameters. -/
theorem bindParams_spec (fails : Nat → Bool) : ∀ (modes : List Mode) (os : List Nat) (xs : List α) (owned : List Nat) (s : St α) (w : World α),
    Inv s w → modes.length = os.length → Live w os xs → os.Nodup → owned.Nodup → (∀ o ∈ owned, There w o) → (∀ o ∈ owned, o ∉ os) →
    (((bindParams fails (modes.zip os) owned s).2 = none ∧ ¬ (∀ n, fails n = false)) ∧
      ∃ w', Inv (bindParams fails (modes.zip os) owned s).1 w' ∧ w'.calls = w.calls ∧ w.slots.length ≤ w'.slots.length ∧
        (∀ i, i < w.slots.length → (There w' i ↔ There w i ∧ i ∉ owned)) ∧ (∀ i, w.slots.length ≤ i → ¬ There w' i) ∧
        (∃ k, Counts s (bindParams fails (modes.zip os) owned s).1 0 k)) ∨
    (∃ ps owned', (bindParams fails (modes.zip os) owned s).2 = some (ps, owned') ∧
      ∃ w', Inv (bindParams fails (modes.zip os) owned s).1 w' ∧ w'.calls = w.calls ∧ w.slots.length ≤ w'.slots.length ∧
        Live w' ps xs ∧ ps.Nodup ∧ owned'.Nodup ∧ (∀ o ∈ owned', There w' o) ∧
        (∀ i, i < w.slots.length → (There w' i ↔ There w i)) ∧
        (∀ i, i ∉ os → i < w.slots.length → w'.slots[i]? = w.slots[i]?) ∧
        (∀ i, i ∈ owned' ↔ i ∈ owned ∨ (w.slots.length ≤ i ∧ i < w'.slots.length)) ∧
        (∀ p ∈ ps, p ∈ os ∨ w.slots.length ≤ p) ∧
        Counts s (bindParams fails (modes.zip os) owned s).1 0 (modes.count .byValue)) := by
  intro modes
  induction modes with
  | nil =>
    intro os xs owned s w h hl hL hn hno hot hdis
    cases os with
    | cons o os => simp at hl
    | nil =>
      cases xs with
      | cons x xs => exact hL.elim
      | nil =>
        refine .inr ⟨[], owned, rfl, w, h, rfl, Nat.le_refl _, trivial, by simp, hno, hot, by simp, by simp, ?_, by simp, Counts.refl s⟩
        intro i
        refine ⟨fun hi => .inl hi, ?_⟩
        rintro (hi | hi)
        · exact hi
        · omega
  | cons mode modes ih =>
    intro os xs owned s w h hl hL hn hno hot hdis
    cases os with
    | nil => simp at hl
    | cons o os =>
      cases xs with
      | nil => exact hL.elim
      | cons x xs =>
        have hl' : modes.length = os.length := by simpa using hl
        have hn' := List.nodup_cons.1 hn
        have hto : There w o := ⟨_, hL.1, by simp⟩
        have hsz := there_lt hto
        by_cases hm : mode = .byValue
        · subst hm
          simp only [List.zip_cons_cons, bindParams]
          rcases moveTo_cases fails h hL.1 with ⟨hf, h2, hI, hC⟩ | ⟨hf, h2, hI, hC⟩
          · -- the move constructor throws
            cases he : moveTo fails o s with
            | mk s1 r =>
              rw [he] at h2 hI hC
              simp only at h2 hI hC
              subst h2
              refine .inl ⟨⟨rfl, fun hall => by simp [hall] at hf⟩, ?_⟩
              obtain ⟨w', k1, k2, k3, k4, k5⟩ := inv_destroyAll owned hI hno (fun p hp => (there_set_husk _ hto).2 (hot p hp))
              have hlen : w'.slots.length = w.slots.length := by simpa using k3
              refine ⟨w', k1, k2, by omega, ?_, ?_, ⟨_, hC.trans (counts_destroyAll owned s1)⟩⟩
              · intro i hi
                by_cases hio : i ∈ owned
                · simp [k4 i hio, hio]
                · have := there_set_husk (i := i) w.calls hto
                  simp only [hio, not_false_eq_true, and_true]
                  rw [← this]
                  simp only [There, k5 i hio]
              · intro i hi ht
                have := there_lt ht
                omega
          · cases he : moveTo fails o s with
            | mk s1 r =>
              rw [he] at h2 hI hC
              simp only at h2 hI hC
              subst h2
              dsimp only
              have hpush : ∀ i, i < w.slots.length → i ≠ o →
                  (w.slots.set o .husk ++ [Slot.live x])[i]? = w.slots[i]? := by
                intro i hi hne
                rw [List.getElem?_append_left (by simpa using hi)]
                simp [Ne.symm hne]
              have hLt := hL.2.lt
              have hplast : (w.slots.set o .husk ++ [Slot.live x])[w.slots.length]? = some (.live x) := by
                rw [List.getElem?_append_right (by simp)]
                simp
              have hL' : Live (⟨w.slots.set o .husk ++ [Slot.live x], w.calls⟩ : World α) os xs :=
                hL.2.congr fun p hp => hpush p (hLt p hp) (fun e => hn'.1 (e ▸ hp))
              have hnp : ∀ p ∈ os, p ≠ w.slots.length := fun p hp e => by have := hLt p hp; omega
              have hnw : ∀ p ∈ owned, p ≠ w.slots.length := fun p hp e => by have := there_lt (hot p hp); omega
              have key := ih os xs (w.slots.length :: owned) s1 _ hI hl' hL' hn'.2
                (List.nodup_cons.2 ⟨fun hm => hnw _ hm rfl, hno⟩)
                (by
                  intro p hp
                  rcases List.mem_cons.1 hp with rfl | hp
                  · exact ⟨_, hplast, by simp⟩
                  · exact (there_push w.calls hto (there_lt (hot p hp))).2 (hot p hp))
                (by
                  intro p hp
                  rcases List.mem_cons.1 hp with rfl | hp
                  · exact fun hm => hnp _ hm rfl
                  · exact fun hm => hdis p hp (by simp [hm]))
              rcases key with ⟨⟨kn, kf⟩, w', k1, k2, k3, k4, k5, k, k6⟩ | ⟨ps, owned', ks, w', k1, k2, k3, k4, k5, k6, k7, k8, k9, k10, k11, k12⟩
              · cases he2 : bindParams fails (modes.zip os) (w.slots.length :: owned) s1 with
                | mk s2 r2 =>
                  rw [he2] at kn k1 k6
                  simp only at kn k1 k6
                  subst kn
                  have k3' : w.slots.length + 1 ≤ w'.slots.length := by simpa using k3
                  refine .inl ⟨⟨rfl, kf⟩, w', k1, k2, by omega, ?_, ?_, ⟨_, hC.trans k6⟩⟩
                  · intro i hi
                    rw [k4 i (by simp; omega), there_push w.calls hto hi]
                    have : i ≠ w.slots.length := by omega
                    simp [this]
                  · intro i hi
                    by_cases e : i = w.slots.length
                    · subst e
                      rw [k4 _ (by simp)]
                      simp
                    · exact k5 i (by simp; omega)
              · cases he2 : bindParams fails (modes.zip os) (w.slots.length :: owned) s1 with
                | mk s2 r2 =>
                  rw [he2] at ks k1 k12
                  simp only at ks k1 k12
                  subst ks
                  have k3' : w.slots.length + 1 ≤ w'.slots.length := by simpa using k3
                  refine .inr ⟨w.slots.length :: ps, owned', rfl, w', k1, k2, by omega, ?_, ?_, k6, k7, ?_, ?_, ?_, ?_, ?_⟩
                  · refine ⟨?_, k4⟩
                    rw [k9 _ (fun hm => hnp _ hm rfl) (by simp)]
                    exact hplast
                  · refine List.nodup_cons.2 ⟨fun hm => ?_, k5⟩
                    rcases k11 _ hm with hm | hm
                    · exact hnp _ hm rfl
                    · simp at hm
                      omega
                  · intro i hi
                    rw [k8 i (by simp; omega), there_push w.calls hto hi]
                  · intro i hi hlt
                    have hio : i ≠ o := fun e => hi (by simp [e])
                    rw [k9 i (fun hm => hi (by simp [hm])) (by simp; omega)]
                    exact hpush i hlt hio
                  · intro i
                    rw [k10 i]
                    simp only [List.mem_cons, List.length_append, List.length_set, List.length_cons, List.length_nil]
                    constructor
                    · rintro ((rfl | hh) | hh)
                      · exact .inr ⟨Nat.le_refl _, by omega⟩
                      · exact .inl hh
                      · exact .inr ⟨by omega, hh.2⟩
                    · rintro (hh | hh)
                      · exact .inl (.inr hh)
                      · by_cases e : i = w.slots.length
                        · exact .inl (.inl e)
                        · exact .inr ⟨by omega, hh.2⟩
                  · intro p hp
                    rcases List.mem_cons.1 hp with rfl | hp
                    · exact .inr (Nat.le_refl _)
                    · rcases k11 p hp with hh | hh
                      · exact .inl (by simp [hh])
                      · simp at hh
                        exact .inr (by omega)
                  · have := hC.trans k12
                    simp only [List.count_cons_self]
                    rw [Nat.add_comm 1] at this
                    exact this
        · have hbind : bindParams fails ((mode :: modes).zip (o :: os)) owned s =
              match bindParams fails (modes.zip os) owned s with
              | (s2, none) => (s2, none)
              | (s2, some (ps, owned')) => (s2, some (o :: ps, owned')) := by
            cases mode with
            | byValue => exact absurd rfl hm
            | constRef => rfl
            | rvalueRef => rfl
          rw [hbind]
          have hcount : (mode :: modes).count .byValue = modes.count .byValue := by
            rw [List.count_cons]
            simp [hm]
          rcases ih os xs owned s w h hl' hL.2 hn'.2 hno hot (fun p hp hmem => hdis p hp (by simp [hmem])) with
            ⟨⟨kn, kf⟩, w', k1, k2, k3, k4, k5, k, k6⟩ | ⟨ps, owned', ks, w', k1, k2, k3, k4, k5, k6, k7, k8, k9, k10, k11, k12⟩
          · cases he2 : bindParams fails (modes.zip os) owned s with
            | mk s2 r2 =>
              rw [he2] at kn k1 k6
              simp only at kn k1 k6
              subst kn
              exact .inl ⟨⟨rfl, kf⟩, w', k1, k2, k3, k4, k5, k, k6⟩
          · cases he2 : bindParams fails (modes.zip os) owned s with
            | mk s2 r2 =>
              rw [he2] at ks k1 k12
              simp only at ks k1 k12
              subst ks
              refine .inr ⟨o :: ps, owned', rfl, w', k1, k2, k3, ?_, ?_, k6, k7, k8, ?_, k10, ?_, by rw [hcount]; exact k12⟩
              · exact ⟨(k9 o hn'.1 hsz).trans hL.1, k4⟩
              · refine List.nodup_cons.2 ⟨fun hm => ?_, k5⟩
                rcases k11 _ hm with hm | hm
                · exact hn'.1 hm
                · omega
              · intro i hi hlt
                exact k9 i (fun hm => hi (by simp [hm])) hlt
              · intro p hp
                rcases List.mem_cons.1 hp with rfl | hp
                · exact .inl (by simp)
                · rcases k11 p hp with hh | hh
                  · exact .inl (by simp [hh])
                  · exact .inr hh

/-- What a call with parameters `xs` does; `ok`: how the user function ends; `k`: the moves. -/
def Good (fails : Nat → Bool) (xs : List α) (ok : Bool) (k : Nat) (f : List Nat → St α → St α × Bool) : Prop :=
  ∀ s w ps, Inv s w → ps.Nodup → Live w ps xs →
    ∃ w', Inv (f ps s).1 w' ∧ Settled w w' ∧
      ((w'.calls = w.calls ∧ (f ps s).2 = false) ∨ (w'.calls = w.calls ++ [xs] ∧ (f ps s).2 = ok)) ∧
      (∃ m, Counts s (f ps s).1 0 m) ∧
      ((∀ n, fails n = false) → w'.calls = w.calls ++ [xs] ∧ (f ps s).2 = ok ∧ Counts s (f ps s).1 0 k)

theorem frame_good {fails : Nat → Bool} {xs : List α} {ok : Bool} {k : Nat} {body : List Nat → St α → St α × Bool} {modes : List Mode}
    (hl : modes.length = xs.length) (hb : Good fails xs ok k body) :
    Good fails xs ok (modes.count .byValue + k) (frame fails modes · body) := by
  intro s w os h hn hL
  have hlo : modes.length = os.length := by rw [hl, hL.length]
  rcases bindParams_spec fails modes os xs [] s w h hlo hL hn (by simp) (by simp) (by simp) with
    ⟨⟨kn, kf⟩, w', k1, k2, k3, k4, k5, m, k6⟩ | ⟨ps, owned', ks, w', k1, k2, k3, k4, k5, k6, k7, k8, k9, k10, k11, k12⟩
  · cases he : bindParams fails (modes.zip os) [] s with
    | mk s1 r =>
      rw [he] at kn k1 k6
      simp only at kn k1 k6
      subst kn
      have hfr : frame fails modes os body s = (s1, false) := by simp [frame, he]
      simp only [hfr]
      refine ⟨w', k1, ⟨k3, fun i hi => by simpa using k4 i hi, k5⟩, .inl ⟨k2, trivial⟩, ⟨m, k6⟩, fun hall => absurd hall kf⟩
  · cases he : bindParams fails (modes.zip os) [] s with
    | mk s1 r =>
      rw [he] at ks k1 k12
      simp only at ks k1 k12
      subst ks
      obtain ⟨w2, b1, b2, b3, ⟨m, b4⟩, b5⟩ := hb s1 w' ps k1 k5 k4
      cases hbe : body ps s1 with
      | mk s2 r2 =>
        rw [hbe] at b1 b3 b4 b5
        simp only at b1 b3 b4 b5
        have hfr : frame fails modes os body s = (destroyAll owned' s2, r2) := by simp [frame, he, hbe]
        simp only [hfr]
        obtain ⟨w3, d1, d2, d3, d4, d5⟩ := inv_destroyAll owned' b1 k6 (fun o ho => (b2.old o (there_lt (k7 o ho))).2 (k7 o ho))
        have hmem : ∀ i, i ∈ owned' ↔ w.slots.length ≤ i ∧ i < w'.slots.length := fun i => by simpa using k10 i
        refine ⟨w3, d1, ⟨?_, ?_, ?_⟩, ?_, ⟨_, (k12.trans b4).trans (counts_destroyAll owned' s2)⟩, ?_⟩
        · have := b2.size
          omega
        · intro i hi
          have hni : i ∉ owned' := fun hm => by have := (hmem i).1 hm; omega
          have hT : There w3 i ↔ There w2 i := by simp only [There, d5 i hni]
          rw [hT, b2.old i (by omega), k8 i hi]
        · intro i hi
          by_cases hio : i ∈ owned'
          · exact d4 i hio
          · have hT : There w3 i ↔ There w2 i := by simp only [There, d5 i hio]
            rw [hT]
            refine b2.new i ?_
            have := mt (hmem i).2 hio
            omega
        · rw [d2, ← k2]
          exact b3
        · intro hall
          obtain ⟨c1, c2, c3⟩ := b5 hall
          rw [d2, ← k2]
          refine ⟨c1, c2, ?_⟩
          have := (k12.trans c3).trans (counts_destroyAll owned' s2)
          simpa using this

theorem inv_takeParams (modes : List Mode) (ps : List Nat) : ∀ (is : List Nat) (s : St α) (w : World α), Inv s w → (∀ p ∈ ps, There w p) →
    ∃ w', Inv (takeParams modes ps is s) w' ∧ w'.calls = w.calls ∧ w'.slots.length = w.slots.length ∧
      (∀ i, There w' i ↔ There w i) ∧ Counts s (takeParams modes ps is s) 0 0 := by
  intro is
  induction is with
  | nil => intro s w h _; exact ⟨w, h, rfl, rfl, fun _ => Iff.rfl, Counts.refl s⟩
  | cons i is ih =>
    intro s w h hp
    simp only [takeParams]
    have htake : ∀ o, ps[i]? = some o →
        ∃ w', Inv (takeParams modes ps is (s.emit (.take o))) w' ∧ w'.calls = w.calls ∧ w'.slots.length = w.slots.length ∧
          (∀ i, There w' i ↔ There w i) ∧ Counts s (takeParams modes ps is (s.emit (.take o))) 0 0 := by
      intro o ho
      have ht : There w o := hp o (List.mem_of_getElem? ho)
      obtain ⟨sl, hs, hg⟩ := ht
      have hst : ∃ w1, Rule w (.take o) = some w1 ∧ w1.calls = w.calls ∧ w1.slots.length = w.slots.length ∧
          ∀ j, There w1 j ↔ There w j := by
        cases sl with
        | gone => exact absurd rfl hg
        | husk => exact ⟨w, by simp [Rule, hs], rfl, rfl, fun _ => Iff.rfl⟩
        | live x =>
          exact ⟨{ w with slots := w.slots.set o .husk }, by simp [Rule, hs], rfl, by simp,
            fun j => there_set_husk w.calls ⟨_, hs, hg⟩⟩
      obtain ⟨w1, r1, r2, r3, r4⟩ := hst
      have hI : Inv (s.emit (.take o)) w1 := ⟨h.emit r1, by rw [r3]; exact h.size⟩
      obtain ⟨w', i1, i2, i3, i4, i5⟩ := ih _ w1 hI (fun p hp' => (r4 p).2 (hp p hp'))
      exact ⟨w', i1, i2.trans r2, i3.trans r3, fun j => (i4 j).trans (r4 j), (counts_take s o).trans i5⟩
    cases hm : modes[i]? with
    | none => exact ih s w h hp
    | some m =>
      cases hps : ps[i]? with
      | none => cases m <;> exact ih s w h hp
      | some o =>
        cases m with
        | constRef => exact ih s w h hp
        | byValue => exact htake o hps
        | rvalueRef => exact htake o hps

theorem userBody_good (fails : Nat → Bool) (xs : List α) (modes : List Mode) (act : List Nat × Bool) :
    Good fails xs (!act.2) 0 (userBody modes act) := by
  intro s w ps h hn hL
  have hI : Inv (s.emit (.call ps)) { w with calls := w.calls ++ [xs] } :=
    ⟨h.emit (by simp [Rule, hL.values]), h.size⟩
  obtain ⟨w', i1, i2, i3, i4, i5⟩ := inv_takeParams modes ps act.1 _ _ hI (fun p hp => hL.there p hp)
  have hc := (counts_call s ps).trans i5
  refine ⟨w', i1, ⟨by simp [i3], fun i _ => i4 i, ?_⟩, .inr ⟨i2, rfl⟩, ⟨_, hc⟩, fun _ => ⟨i2, rfl, hc⟩⟩
  intro i hi ht
  have h2 := there_lt ht
  rw [i3] at h2
  simp only at h2
  omega

theorem invokeWrapped_good (fails : Nat → Bool) (xs : List α) (modes : List Mode) (act : List Nat × Bool)
    (hl : modes.length = xs.length) : Good fails xs (!act.2) (3 * modes.count .byValue) (invokeWrapped fails modes act) := by
  have h := frame_good hl (frame_good hl (frame_good hl (userBody_good fails xs modes act)))
  have e : modes.count .byValue + (modes.count .byValue + (modes.count .byValue + 0)) = 3 * modes.count .byValue := by omega
  rw [e] at h
  exact h

/-- A conversion. -/
theorem convertOne_spec (fails : Nat → Bool) (c : Outcome α) {s : St α} {w : World α} (h : Inv s w) :
    ∃ w', Inv (convertOne fails c s).1 w' ∧ w'.calls = w.calls ∧ w.slots.length ≤ w'.slots.length ∧
      (∀ i, i < w.slots.length → w'.slots[i]? = w.slots[i]?) ∧
      (((convertOne fails c s).2 = none ∧ (c = .throws ∨ ¬ ∀ n, fails n = false) ∧ (∀ i, w.slots.length ≤ i → ¬ There w' i) ∧
          ∃ m k, Counts s (convertOne fails c s).1 m k) ∨
       ((convertOne fails c s).2 = some none ∧ c = .error ∧ (∀ i, w.slots.length ≤ i → ¬ There w' i) ∧
          Counts s (convertOne fails c s).1 0 0) ∨
       (∃ p x, (convertOne fails c s).2 = some (some p) ∧ c = .value x ∧ w.slots.length ≤ p ∧ w'.slots[p]? = some (.live x) ∧
          (∀ i, w.slots.length ≤ i → i ≠ p → ¬ There w' i) ∧ Counts s (convertOne fails c s).1 1 1)) := by
  have hnone : ∀ i, w.slots.length ≤ i → ¬ There w i := fun i hi ht => by have := there_lt ht; omega
  cases c with
  | error => exact ⟨w, h, rfl, Nat.le_refl _, fun _ _ => rfl, .inr (.inl ⟨rfl, rfl, hnone, Counts.refl s⟩)⟩
  | throws => exact ⟨w, h, rfl, Nat.le_refl _, fun _ _ => rfl, .inl ⟨rfl, .inl rfl, hnone, 0, 0, Counts.refl s⟩⟩
  | value x =>
    have hI : Inv (⟨s.next + 1, s.tries, (s.emit (.make s.next x)).log⟩ : St α) { w with slots := w.slots ++ [.live x] } :=
      ⟨h.emit (by simp [Rule, h.size]), by simp [h.size]⟩
    have hlive : (w.slots ++ [Slot.live x])[s.next]? = some (.live x) := by
      rw [← h.size, List.getElem?_append_right (Nat.le_refl _)]; simp
    have hmk : Counts s (⟨s.next + 1, s.tries, (s.emit (.make s.next x)).log⟩ : St α) 1 0 := (counts_make s s.next x).log_eq rfl
    rcases moveTo_cases fails hI hlive with ⟨hf, h2, hJ, hC⟩ | ⟨hf, h2, hJ, hC⟩
    · cases he : moveTo fails s.next (⟨s.next + 1, s.tries, (s.emit (.make s.next x)).log⟩ : St α) with
      | mk s1 r =>
        rw [he] at h2 hJ hC
        dsimp only at h2 hJ hC
        subst h2
        have hc : convertOne fails (.value x) s = (s1.emit (.destroy s.next), none) := by
          show (match moveTo fails s.next (⟨s.next + 1, s.tries, (s.emit (.make s.next x)).log⟩ : St α) with
            | (s1, none) => (s1.emit (.destroy s.next), none)
            | (s1, some p) => (s1.emit (.destroy s.next), some (some p))) = _
          rw [he]
        rw [hc]
        have hd := inv_destroy (o := s.next) hJ ⟨.husk, by simp [← h.size], by simp⟩
        refine ⟨_, hd, rfl, by simp, ?_, .inl ⟨rfl, .inr fun hall => by simp [hall] at hf, ?_, _, _,
          (hmk.trans hC).trans (counts_destroy s1 s.next)⟩⟩
        · intro i hi
          have : s.next ≠ i := by rw [← h.size]; omega
          simp [this, List.getElem?_append_left hi]
        · rintro i hi ⟨sl, hs, hg⟩
          have hsz := h.size
          by_cases e : s.next = i
          · subst e
            simp [List.getElem?_set] at hs
            exact hg hs.2.symm
          · have hlt := (List.getElem?_eq_some_iff.1 hs).1
            simp at hlt
            omega
    · cases he : moveTo fails s.next (⟨s.next + 1, s.tries, (s.emit (.make s.next x)).log⟩ : St α) with
      | mk s1 r =>
        rw [he] at h2 hJ hC
        dsimp only at h2 hJ hC
        subst h2
        have hc : convertOne fails (.value x) s = (s1.emit (.destroy s.next), some (some (w.slots ++ [Slot.live x]).length)) := by
          show (match moveTo fails s.next (⟨s.next + 1, s.tries, (s.emit (.make s.next x)).log⟩ : St α) with
            | (s1, none) => (s1.emit (.destroy s.next), none)
            | (s1, some p) => (s1.emit (.destroy s.next), some (some p))) = _
          rw [he]
        rw [hc]
        have hd := inv_destroy (o := s.next) hJ ⟨.husk, by simp [← h.size], by simp⟩
        refine ⟨_, hd, rfl, by simp; omega, ?_, .inr (.inr ⟨w.slots.length + 1, x, by simp, rfl, by omega, ?_, ?_,
          (hmk.trans hC).trans (counts_destroy s1 s.next)⟩)⟩
        · intro i hi
          have : s.next ≠ i := by rw [← h.size]; omega
          dsimp only
          rw [List.getElem?_set_ne this, List.getElem?_append_left (by simp; omega), List.getElem?_set_ne this,
            List.getElem?_append_left hi]
        · have : s.next ≠ w.slots.length + 1 := by rw [← h.size]; omega
          dsimp only
          rw [List.getElem?_set_ne this, List.getElem?_append_right (by simp)]
          simp
        · rintro i hi hne ⟨sl, hs, hg⟩
          have hsz := h.size
          by_cases e : s.next = i
          · subst e
            simp [List.getElem?_set] at hs
            exact hg hs.2.symm
          · have hlt := (List.getElem?_eq_some_iff.1 hs).1
            simp at hlt
            omega

/-- All conversions. -/
theorem convertAll_spec (fails : Nat → Bool) : ∀ (cs : List (Outcome α)) (held : List Nat) (s : St α) (w : World α),
    Inv s w → held.Nodup → (∀ i, There w i ↔ i ∈ held) →
    ∃ w', Inv (convertAll fails cs held s).1 w' ∧ w'.calls = w.calls ∧ w.slots.length ≤ w'.slots.length ∧
      (((convertAll fails cs held s).2 = none ∧ (Outcome.throws ∈ cs ∨ ¬ ∀ n, fails n = false) ∧ (∀ i, ¬ There w' i) ∧
          ∃ m k, Counts s (convertAll fails cs held s).1 m k) ∨
       (∃ es held', (convertAll fails cs held s).2 = some (es, held') ∧ Outcome.throws ∉ cs ∧
          held'.Nodup ∧ (∀ i, There w' i ↔ i ∈ held') ∧ (∀ i, i < w.slots.length → w'.slots[i]? = w.slots[i]?) ∧
          Counts s (convertAll fails cs held s).1 (valuesOf cs).length (valuesOf cs).length ∧
          ((allValues es = none ∧ Outcome.error ∈ cs) ∨
           (∃ os, allValues es = some os ∧ cs = (valuesOf cs).map .value ∧ os.Nodup ∧ (∀ o ∈ os, w.slots.length ≤ o) ∧
              Live w' os (valuesOf cs))))) := by
  intro cs
  induction cs with
  | nil =>
    intro held s w h hn ht
    exact ⟨w, h, rfl, Nat.le_refl _, .inr ⟨[], held, rfl, by simp, hn, ht, fun _ _ => rfl, Counts.refl s,
      .inr ⟨[], rfl, rfl, by simp, by simp, trivial⟩⟩⟩
  | cons c cs ih =>
    intro held s w h hn ht
    obtain ⟨w1, c1, c2, c3, c4, c5⟩ := convertOne_spec fails c h
    have hold : ∀ i, i < w.slots.length → (There w1 i ↔ i ∈ held) := fun i hi => by
      rw [← ht i]; simp only [There, c4 i hi]
    have hheld : ∀ i ∈ held, i < w.slots.length := fun i hi => there_lt ((ht i).2 hi)
    cases he : convertOne fails c s with
    | mk s1 r =>
      rw [he] at c1 c5
      dsimp only at c1 c5
      rcases c5 with ⟨rfl, hwhy, hnew, m, k, hC⟩ | ⟨rfl, rfl, hnew, hC⟩ | ⟨p, x, rfl, rfl, hp, hlive, hnew, hC⟩
      · have hall : convertAll fails (c :: cs) held s = (destroyAll held s1, none) := by simp [convertAll, he]
        rw [hall]
        obtain ⟨w', d1, d2, d3, d4, d5⟩ := inv_destroyAll held c1 hn (fun o ho => (hold o (hheld o ho)).2 ho)
        refine ⟨w', d1, d2.trans c2, by omega, .inl ⟨rfl, ?_, ?_, _, _, hC.trans (counts_destroyAll held s1)⟩⟩
        · rcases hwhy with rfl | hwhy
          · exact .inl (by simp)
          · exact .inr hwhy
        · intro i hi
          by_cases hih : i ∈ held
          · exact d4 i hih hi
          · have hT : There w1 i := by simpa only [There, d5 i hih] using hi
            by_cases hlt : i < w.slots.length
            · exact hih ((hold i hlt).1 hT)
            · exact hnew i (by omega) hT
      · have hto : ∀ i, There w1 i ↔ i ∈ held := fun i => by
          by_cases hlt : i < w.slots.length
          · exact hold i hlt
          · exact ⟨fun hT => absurd hT (hnew i (by omega)), fun hm => absurd (hheld i hm) hlt⟩
        obtain ⟨w', i1, i2, i3, i4⟩ := ih held s1 w1 c1 hn hto
        cases he2 : convertAll fails cs held s1 with
        | mk s2 r2 =>
          rw [he2] at i1 i4
          dsimp only at i1 i4
          rcases i4 with ⟨rfl, hwhy, hgone, m, k, hC2⟩ | ⟨es, held', rfl, hnt, hn', ht', hsame, hC2, _⟩
          · have hall : convertAll fails (.error :: cs) held s = (s2, none) := by simp [convertAll, he, he2]
            rw [hall]
            exact ⟨w', i1, i2.trans c2, by omega, .inl ⟨rfl, hwhy.imp (fun h => by simp [h]) id, hgone, _, _, hC.trans hC2⟩⟩
          · have hall : convertAll fails (.error :: cs) held s = (s2, some (none :: es, held')) := by simp [convertAll, he, he2]
            rw [hall]
            refine ⟨w', i1, i2.trans c2, by omega, .inr ⟨_, _, rfl, by simp [hnt], hn', ht', ?_, ?_, .inl ⟨rfl, by simp⟩⟩⟩
            · intro i hi
              rw [hsame i (by omega), c4 i hi]
            · have := hC.trans hC2
              simpa [valuesOf] using this
      · have hpl : p < w1.slots.length := there_lt ⟨_, hlive, by simp⟩
        have hph : p ∉ held := fun hm => by have := hheld p hm; omega
        have hto : ∀ i, There w1 i ↔ i ∈ p :: held := fun i => by
          by_cases hlt : i < w.slots.length
          · rw [hold i hlt]
            have : i ≠ p := by omega
            simp [this]
          · by_cases e : i = p
            · subst e
              exact ⟨fun _ => by simp, fun _ => ⟨_, hlive, by simp⟩⟩
            · refine ⟨fun hT => absurd hT (hnew i (by omega) e), fun hm => ?_⟩
              rcases List.mem_cons.1 hm with hm | hm
              · exact absurd hm e
              · exact absurd (hheld i hm) hlt
        obtain ⟨w', i1, i2, i3, i4⟩ := ih (p :: held) s1 w1 c1 (List.nodup_cons.2 ⟨hph, hn⟩) hto
        cases he2 : convertAll fails cs (p :: held) s1 with
        | mk s2 r2 =>
          rw [he2] at i1 i4
          dsimp only at i1 i4
          rcases i4 with ⟨rfl, hwhy, hgone, m, k, hC2⟩ | ⟨es, held', rfl, hnt, hn', ht', hsame, hC2, hes⟩
          · have hall : convertAll fails (.value x :: cs) held s = (s2, none) := by simp [convertAll, he, he2]
            rw [hall]
            exact ⟨w', i1, i2.trans c2, by omega, .inl ⟨rfl, hwhy.imp (fun h => by simp [h]) id, hgone, _, _, hC.trans hC2⟩⟩
          · have hall : convertAll fails (.value x :: cs) held s = (s2, some (some p :: es, held')) := by
              simp [convertAll, he, he2]
            rw [hall]
            refine ⟨w', i1, i2.trans c2, by omega, .inr ⟨_, _, rfl, by simp [hnt], hn', ht', ?_, ?_, ?_⟩⟩
            · intro i hi
              rw [hsame i (by omega), c4 i hi]
            · have := hC.trans hC2
              simp only [valuesOf, List.length_cons]
              rw [Nat.add_comm _ 1]
              exact this
            · rcases hes with ⟨e1, e2⟩ | ⟨os, e1, e2, e3, e4, e5⟩
              · exact .inl ⟨by simp [allValues, e1], by simp [e2]⟩
              · refine .inr ⟨p :: os, by simp [allValues, e1], ?_, ?_, ?_, ?_⟩
                · simp only [valuesOf, List.map_cons]
                  rw [← e2]
                · exact List.nodup_cons.2 ⟨fun hm => by have := e4 p hm; omega, e3⟩
                · intro o ho
                  rcases List.mem_cons.1 ho with rfl | ho
                  · exact hp
                  · have := e4 o ho
                    omega
                · exact ⟨(hsame p hpl).trans hlive, e5⟩

theorem inv_start : Inv (St.start : St α) World.start := ⟨rfl, rfl⟩

theorem clean_of {w : World α} (h : ∀ i, ¬ There w i) : w.Clean := by
  intro sl hs
  obtain ⟨i, hi⟩ := List.mem_iff_getElem?.1 hs
  by_cases e : sl = .gone
  · exact e
  · exact absurd ⟨sl, hi, e⟩ (h i)

theorem valuesOf_map (xs : List α) : valuesOf (xs.map Outcome.value) = xs := by
  induction xs with
  | nil => rfl
  | cons x xs ih => simp [valuesOf, ih]

/-- A whole call. -/
theorem callFunction_spec (fails : Nat → Bool) (modes : List Mode) (cs : List (Outcome α)) (body : Body α) (hl : modes.length = cs.length) :
    ∃ w, Inv (callFunction fails modes cs body St.start).1 w ∧ (∀ i, ¬ There w i) ∧
      (∃ m k, Counts St.start (callFunction fails modes cs body St.start).1 m k) ∧
      (((callFunction fails modes cs body St.start).2 = .exn ∧ w.calls = [] ∧ (Outcome.throws ∈ cs ∨ ¬ ∀ n, fails n = false)) ∨
       ((callFunction fails modes cs body St.start).2 = .rejected ∧ w.calls = [] ∧ Outcome.error ∈ cs ∧ Outcome.throws ∉ cs ∧
         Counts St.start (callFunction fails modes cs body St.start).1 (valuesOf cs).length (valuesOf cs).length) ∨
       (cs = (valuesOf cs).map .value ∧ w.calls = [valuesOf cs] ∧
         (callFunction fails modes cs body St.start).2 = (if (body (valuesOf cs)).2 then .exn else .called) ∧
         ((∀ n, fails n = false) → Counts St.start (callFunction fails modes cs body St.start).1 (valuesOf cs).length
           ((valuesOf cs).length + 3 * modes.count .byValue)))) := by
  obtain ⟨w1, c1, c2, c3, c4⟩ := convertAll_spec fails cs [] St.start World.start inv_start (by simp)
    (fun i => by simp [There, World.start])
  have c2' : w1.calls = [] := c2
  cases he : convertAll fails cs [] (St.start : St α) with
  | mk s1 r =>
    rw [he] at c1 c4
    dsimp only at c1 c4
    rcases c4 with ⟨rfl, hwhy, hgone, m, k, hC⟩ | ⟨es, held, rfl, hnt, hn, ht, _, hC, hes⟩
    · have hall : callFunction fails modes cs body St.start = (s1, .exn) := by simp [callFunction, he]
      rw [hall]
      exact ⟨w1, c1, hgone, ⟨m, k, hC⟩, .inl ⟨rfl, c2', hwhy⟩⟩
    · rcases hes with ⟨e1, e2⟩ | ⟨os, e1, e2, e3, _, e5⟩
      · have hall : callFunction fails modes cs body St.start = (destroyAll held s1, .rejected) := by simp [callFunction, he, e1]
        rw [hall]
        obtain ⟨w', d1, d2, d3, d4, d5⟩ := inv_destroyAll held c1 hn (fun o ho => (ht o).2 ho)
        have hC' := hC.trans (counts_destroyAll held s1)
        refine ⟨w', d1, ?_, ⟨_, _, hC'⟩, .inr (.inl ⟨rfl, d2.trans c2', e2, hnt, hC'⟩)⟩
        intro i hi
        by_cases hm : i ∈ held
        · exact d4 i hm hi
        · exact hm ((ht i).1 (by simpa only [There, d5 i hm] using hi))
      · have hlx : modes.length = (valuesOf cs).length := by
          rw [hl]
          conv => lhs; rw [e2]
          simp
        obtain ⟨w2, b1, b2, b3, ⟨m, b4⟩, b5⟩ :=
          invokeWrapped_good fails (valuesOf cs) modes (body (valuesOf cs)) hlx s1 w1 os c1 e3 e5
        cases hb : invokeWrapped fails modes (body (valuesOf cs)) os s1 with
        | mk s2 ok =>
          rw [hb] at b1 b3 b4 b5
          dsimp only at b1 b3 b4 b5
          have hall : callFunction fails modes cs body St.start = (destroyAll held s2, if ok then .called else .exn) := by
            simp [callFunction, he, e1, hb]
          rw [hall]
          have hthere : ∀ o ∈ held, There w2 o := fun o ho => (b2.old o (there_lt ((ht o).2 ho))).2 ((ht o).2 ho)
          obtain ⟨w', d1, d2, d3, d4, d5⟩ := inv_destroyAll held b1 hn hthere
          refine ⟨w', d1, ?_, ⟨_, _, (hC.trans b4).trans (counts_destroyAll held s2)⟩, ?_⟩
          · intro i hi
            by_cases hm : i ∈ held
            · exact d4 i hm hi
            · have hT : There w2 i := by simpa only [There, d5 i hm] using hi
              by_cases hlt : i < w1.slots.length
              · exact hm ((ht i).1 ((b2.old i hlt).1 hT))
              · exact b2.new i (by omega) hT
          · rw [c2'] at b3 b5
            rcases b3 with ⟨hc, rfl⟩ | ⟨hc, rfl⟩
            · by_cases hf : ∀ n, fails n = false
              · have := (b5 hf).1
                rw [hc] at this
                simp at this
              · exact .inl ⟨rfl, d2.trans hc, .inr hf⟩
            · refine .inr (.inr ⟨e2, d2.trans hc, ?_, fun hf => ?_⟩)
              · cases (body (valuesOf cs)).2 <;> rfl
              · have := (hC.trans (b5 hf).2.2).trans (counts_destroyAll held s2)
                simpa using this

end Pass
end Coil
