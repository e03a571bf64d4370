import Verif.Props.C51
import Verif.Model.Definitions
/-! The first way a pattern matches, and patterns that do not match: lemmas for the patterns of new_definition.py. -/
namespace L2J.Defn
open Cmds

/-- The engine's first choice for `r` is to take exactly `x`, whatever came before. -/
def Eats (r : Re) (x rest : Str) (g g' : List (Nat × Str)) : Prop := ∀ rev, Hd r ⟨rev, x ++ rest, g⟩ ⟨x.reverse ++ rev, rest, g'⟩

/-- `r` does not match. -/
def Dead (r : Re) (s : Str) : Prop := ∀ rev g, r.run ⟨rev, s, g⟩ = []

theorem Eats.seq {a b : Re} {x y rest : Str} {g g1 g2} (h1 : Eats a x (y ++ rest) g g1) (h2 : Eats b y rest g1 g2) :
    Eats (.seq a b) (x ++ y) rest g g2 := by
  intro rev
  have e1 := h1 rev
  have e2 := h2 (x.reverse ++ rev)
  have := Hd.seq e1 e2
  simpa [List.append_assoc, List.reverse_append] using this

theorem Eats.eps (rest : Str) (g) : Eats .eps [] rest g g := fun _ => rfl

theorem Eats.lit (t rest : Str) (g) : Eats (.lit t) t rest g g := fun rev => hd_lit t rev rest g

theorem Eats.left {a b : Re} {x rest : Str} {g g'} (h : Eats a x rest g g') : Eats (.alt a b) x rest g g' := fun rev => Hd.left (h rev)

theorem Eats.right {a b : Re} {x rest : Str} {g g'} (h0 : Dead a (x ++ rest)) (h : Eats b x rest g g') : Eats (.alt a b) x rest g g' :=
  fun rev => Hd.right (h0 rev g) (h rev)

theorem Eats.optSome {a : Re} {x rest : Str} {g g'} (h : Eats a x rest g g') : Eats (.opt a) x rest g g' := .left h

theorem Eats.optNone {a : Re} {rest : Str} {g} (h : Dead a rest) : Eats (.opt a) [] rest g g := .right h (.eps rest g)

theorem Eats.group {a : Re} {x rest : Str} {g g'} (n : Nat) (h : Eats a x rest g g') : Eats (.group n a) x rest g ((n, x) :: g') := by
  intro rev
  have := h rev
  unfold Hd at *
  rw [show (Re.group n a).run ⟨rev, x ++ rest, g⟩ = (a.run ⟨rev, x ++ rest, g⟩).map fun st' =>
      { st' with groups := (n, (x ++ rest).take ((x ++ rest).length - st'.rest.length)) :: st'.groups } from rfl, List.head?_map, this]
  simp

theorem Eats.star_chr (p : Char → Bool) {x rest : Str} {g} (h1 : ∀ c ∈ x, p c = true) (h2 : ∀ c ∈ rest.head?, p c = false) :
    Eats (.star (.chr p)) x rest g g := fun rev => hd_star_chr p x rest rev g h1 h2

theorem Eats.chr (p : Char → Bool) {c : Char} {rest : Str} {g} (h : p c = true) : Eats (.chr p) [c] rest g g := by
  intro rev; unfold Hd; simp [Re.run, h]

theorem Eats.plus_chr (p : Char → Bool) {x rest : Str} {g} (h0 : x ≠ []) (h1 : ∀ c ∈ x, p c = true) (h2 : ∀ c ∈ rest.head?, p c = false) :
    Eats (.plus (.chr p)) x rest g g := by
  cases x with
  | nil => exact absurd rfl h0
  | cons c x =>
    have := Eats.seq (rest := rest) (g := g) (Eats.chr p (c := c) (rest := x ++ rest) (h1 c (by simp)))
      (Eats.star_chr p (fun d hd => h1 d (by simp [hd])) h2)
    exact this

theorem Eats.spaces {ws rest : Str} {g} (h1 : ∀ c ∈ ws, isSpace c = true) (h2 : ∀ c ∈ rest.head?, isSpace c = false) :
    Eats Defn.spaces ws rest g g := Eats.star_chr isSpace h1 h2

/-- Repetition. -/
theorem Eats.star {a : Re} {g} : ∀ (l : List Str) (rest : Str), (∀ x ∈ l, x ≠ []) →
    (∀ l1 x l2, l = l1 ++ x :: l2 → Eats a x (l2.flatten ++ rest) g g) → Dead a rest → Eats (.star a) l.flatten rest g g := by
  intro l rest h0 h1 h2 rev
  unfold Hd
  rw [show (Re.star a).run ⟨rev, l.flatten ++ rest, g⟩ = iterGreedy a.run (l.flatten ++ rest).length ⟨rev, l.flatten ++ rest, g⟩ from rfl]
  have key : ∀ (l : List Str) (rev : Str) (n : Nat), (∀ x ∈ l, x ≠ []) → (∀ l1 x l2, l = l1 ++ x :: l2 → Eats a x (l2.flatten ++ rest) g g) → l.flatten.length ≤ n →
      (iterGreedy a.run n ⟨rev, l.flatten ++ rest, g⟩).head? = some ⟨l.flatten.reverse ++ rev, rest, g⟩ := by
    intro l
    induction l with
    | nil => intro rev n _ _ _; exact iter_stop n (h2 rev g)
    | cons x l ih =>
      intro rev n h0 h1 hn
      have hx : 0 < x.length := List.length_pos_iff.2 (h0 x (by simp))
      have hlen : (x :: l).flatten.length = x.length + l.flatten.length := by simp
      rw [hlen] at hn
      cases n with
      | zero => omega
      | succ n =>
        have e := h1 [] x l rfl rev
        unfold Hd at e
        rw [show (x :: l).flatten ++ rest = x ++ (l.flatten ++ rest) by simp, iter_step n e (by simp; omega),
          ih (x.reverse ++ rev) n (fun y hy => h0 y (by simp [hy])) (fun l1 y l2 hl => h1 (x :: l1) y l2 (by rw [hl]; rfl)) (by omega)]
        simp
  exact key l rev _ h0 h1 (by simp)

/-- From the first choice to the match. -/
theorem Eats.matchAt {r : Re} {x rest : Str} {g'} (h : Eats r x rest [] g') (rev : Str) :
    r.matchAt rev (x ++ rest) = some ⟨rev, x ++ rest, x.length, g'⟩ := by
  rw [Re.matchAt_eq, show (r.run ⟨rev, x ++ rest, []⟩).head? = _ from h rev]
  simp

theorem Dead.matchAt {r : Re} {s : Str} (h : Dead r s) (rev : Str) : r.matchAt rev s = none := by
  rw [Re.matchAt_eq, h rev []]; rfl

theorem Dead.seq {a b : Re} {s : Str} (h : Dead a s) : Dead (.seq a b) s := by
  intro rev g; rw [show (Re.seq a b).run ⟨rev, s, g⟩ = (a.run ⟨rev, s, g⟩).flatMap b.run from rfl, h rev g]; rfl

theorem Dead.alt {a b : Re} {s : Str} (h1 : Dead a s) (h2 : Dead b s) : Dead (.alt a b) s := by
  intro rev g; rw [show (Re.alt a b).run ⟨rev, s, g⟩ = a.run ⟨rev, s, g⟩ ++ b.run ⟨rev, s, g⟩ from rfl, h1 rev g, h2 rev g]; rfl

theorem Dead.group {a : Re} {s : Str} (n : Nat) (h : Dead a s) : Dead (.group n a) s := by
  intro rev g
  show ((a.run ⟨rev, s, g⟩).map _) = []
  rw [h rev g]; rfl

theorem Dead.lit {t s : Str} (h : ¬ t <+: s) : Dead (.lit t) s := by
  intro rev g
  rw [Re.run_lit, if_neg (by rw [List.isPrefixOf_iff_prefix]; exact h)]

theorem Dead.chr (p : Char → Bool) {s : Str} (h : ∀ c ∈ s.head?, p c = false) : Dead (.chr p) s := by
  intro rev g
  cases s with
  | nil => rfl
  | cons c s => simp [Re.run, h c (by simp)]

theorem Dead.char {c : Char} {s : Str} (h : s.head? ≠ some c) : Dead (.lit [c]) s := by
  apply Dead.lit
  rintro ⟨t, rfl⟩
  exact h rfl

/-- A literal, then something that does not match. -/
theorem Dead.after_lit {t s : Str} {b : Re} (h : Dead b s) : Dead (.seq (.lit t) b) (t ++ s) := by
  intro rev g
  rw [show (Re.seq (.lit t) b).run ⟨rev, t ++ s, g⟩ = ((Re.lit t).run ⟨rev, t ++ s, g⟩).flatMap b.run from rfl, Re.run_lit,
    if_pos (by rw [List.isPrefixOf_iff_prefix]; exact ⟨s, rfl⟩)]
  simp only [List.flatMap_cons, List.flatMap_nil, List.append_nil, List.drop_left]
  exact h _ _

/-- White space, then something that does not match. -/
theorem Dead.spaces {b : Re} {ws s : Str} (hw : ∀ c ∈ ws, isSpace c = true) (hs : ∀ c ∈ s.head?, isSpace c = false)
    (hb : ∀ c t, isSpace c = true → Dead b (c :: t)) (h : Dead b s) : Dead (.seq Defn.spaces b) (ws ++ s) := by
  intro rev g
  rw [show (Re.seq Defn.spaces b).run ⟨rev, ws ++ s, g⟩ = ((Re.star (.chr isSpace)).run ⟨rev, ws ++ s, g⟩).flatMap b.run from rfl, run_star_chr,
    charRuns_flatMap isSpace g b.run (fun rev x rest hx => hb x rest hx rev g)]
  rw [(takeWhile_wrap_ws ws s hw hs).2]
  exact h _ _

theorem Dead.spaces_char {c : Char} {b : Re} {ws s : Str} (hw : ∀ d ∈ ws, isSpace d = true) (hs : ∀ d ∈ s.head?, isSpace d = false)
    (hc : isSpace c = false) (h : s.head? ≠ some c) : Dead (.seq Defn.spaces (.seq (.lit [c]) b)) (ws ++ s) := by
  refine Dead.spaces hw hs (fun d t hd => Dead.seq (Dead.char ?_)) (Dead.seq (Dead.char h))
  intro he; simp at he; rw [he, hc] at hd; cases hd

end L2J.Defn
