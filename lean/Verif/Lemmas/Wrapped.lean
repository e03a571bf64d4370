import Verif.Spec.Wrapped
import Verif.Model.Args
import Verif.Props.C01
/-! Extraction of arguments written in brackets. -/
namespace L2J
open Spec

theorem takeWhile_wrap_ws (ws r : Str) (h : ∀ x ∈ ws, isSpace x = true) (hr : ∀ x ∈ r.head?, isSpace x = false) :
    (ws ++ r).takeWhile isSpace = ws ∧ (ws ++ r).dropWhile isSpace = r := by
  induction ws with
  | nil =>
    cases r with
    | nil => simp
    | cons c r => simp only [List.nil_append]; have := hr c (by simp); simp [this]
  | cons w ws ih =>
    have := ih (fun x hx => h x (by simp [hx]))
    have hw := h w (by simp)
    simp [hw, this]

theorem wrapAll_length (o c : Char) (l : List (Str × Str)) (rest : Str) :
    (wrapAll o c l ++ rest).drop (wrapAll o c l).length = rest := List.drop_left

theorem seqBlocksLoop_wrap (o c : Char) (hos : isSpace o = false) (ho : o ≠ '\\') (hoc : o ≠ c) :
    ∀ (l : List (Str × Str)) (m : Nat) (rest : Str) (total last : Nat), WellWrapped o c l →
    seqBlocksLoop o c (l.length + m) (wrapAll o c l ++ rest) total last =
      (l.map (·.2) ++ (seqBlocksLoop o c m rest (total + (wrapAll o c l).length) (if l = [] then last else total + (wrapAll o c l).length)).1,
       (seqBlocksLoop o c m rest (total + (wrapAll o c l).length) (if l = [] then last else total + (wrapAll o c l).length)).2) := by
  intro l
  induction l with
  | nil => intro m rest total last _; simp [wrapAll]
  | cons e l ih =>
    intro m rest total last h
    obtain ⟨ws, a⟩ := e
    have he := h (ws, a) (by simp)
    rw [show ((ws, a) :: l).length + m = (l.length + m) + 1 by simp; omega]
    have htxt : wrapAll o c ((ws, a) :: l) ++ rest = ws ++ (o :: (a ++ c :: (wrapAll o c l ++ rest))) := by simp [wrapAll]
    rw [htxt]
    conv => lhs; unfold seqBlocksLoop
    obtain ⟨h1, h2⟩ := takeWhile_wrap_ws ws (o :: (a ++ c :: (wrapAll o c l ++ rest))) he.1 (by simp [hos])
    simp only [h1, h2]
    have hx := C01_round_trip [] a (wrapAll o c l ++ rest) o c (by simp) hos ho hoc he.2.1 he.2.2
    simp only [List.nil_append, List.length_nil, Nat.zero_add] at hx
    simp only [hx]
    have hd : (o :: (a ++ c :: (wrapAll o c l ++ rest))).drop (a.length + 2) = wrapAll o c l ++ rest := by
      rw [show o :: (a ++ c :: (wrapAll o c l ++ rest)) = (o :: (a ++ [c])) ++ (wrapAll o c l ++ rest) by simp]
      rw [show a.length + 2 = (o :: (a ++ [c])).length by simp]
      exact List.drop_left
    rw [hd, ih m rest _ _ (fun e he => h e (by simp [he]))]
    have hlen : (wrapAll o c ((ws, a) :: l)).length = ws.length + (a.length + 2) + (wrapAll o c l).length := by
      simp [wrapAll]; omega
    have h3 : total + ws.length + (a.length + 2) + (wrapAll o c l).length = total + (wrapAll o c ((ws, a) :: l)).length := by omega
    rw [h3]
    have h4 : (if l = [] then total + ws.length + (a.length + 2) else total + (wrapAll o c ((ws, a) :: l)).length) =
        total + (wrapAll o c ((ws, a) :: l)).length := by
      by_cases hl : l = []
      · subst hl; rw [if_pos rfl, hlen]; simp [wrapAll]; omega
      · rw [if_neg hl]
    rw [h4]
    simp

/-- Reading as many arguments as are written. -/
theorem seqBlocks_wrap (o c : Char) (hos : isSpace o = false) (ho : o ≠ '\\') (hoc : o ≠ c) (l : List (Str × Str)) (rest : Str)
    (h : WellWrapped o c l) : seqBlocks (wrapAll o c l ++ rest) o c (some l.length) = (l.map (·.2), (wrapAll o c l).length) := by
  unfold seqBlocks
  have := seqBlocksLoop_wrap o c hos ho hoc l 0 rest 0 0 h
  simp only [Nat.add_zero, Nat.zero_add] at this
  simp only [Option.getD_some]
  rw [this]
  by_cases hl : l = []
  · subst hl; simp [wrapAll, seqBlocksLoop]
  · simp [hl, seqBlocksLoop]

/-- Reading more arguments than are written, when something else follows. -/
theorem seqBlocks_wrap_more (o c : Char) (hos : isSpace o = false) (ho : o ≠ '\\') (hoc : o ≠ c) (l : List (Str × Str)) (m : Nat) (rest : Str)
    (h : WellWrapped o c l) (hr : (rest.dropWhile isSpace).head? ≠ some o) :
    seqBlocks (wrapAll o c l ++ rest) o c (some (l.length + m)) = (l.map (·.2), (wrapAll o c l).length) := by
  unfold seqBlocks
  have := seqBlocksLoop_wrap o c hos ho hoc l m rest 0 0 h
  simp only [Nat.zero_add] at this
  simp only [Option.getD_some]
  rw [this]
  have hstop : ∀ t la, seqBlocksLoop o c m rest t la = ([], la) := by
    intro t la
    cases m with
    | zero => rfl
    | succ m =>
      unfold seqBlocksLoop
      have : extractNestedContent (rest.dropWhile isSpace) o c = none := by
        rw [extract_none_iff]
        rintro ⟨s, e, hs, hb⟩
        have hop := (liveAt_get hb.opener).1
        have hs0 : s = 0 := by
          cases s with
          | zero => rfl
          | succ s =>
            obtain ⟨x, hx, hx2⟩ := hs.1 0 (by omega)
            exfalso
            have := List.head?_dropWhile_not isSpace rest
            rw [List.head?_eq_getElem?, hx] at this
            simp [hx2] at this
        subst hs0
        rw [List.head?_eq_getElem?] at hr
        exact hr hop
      simp only [this]
  rw [hstop]
  by_cases hl : l = []
  · subst hl; simp [wrapAll]
  · simp [hl]

end L2J
