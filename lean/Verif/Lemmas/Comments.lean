import Verif.Model.Comments
import Verif.Spec.Comments
import Verif.Lemmas.Level
namespace L2J
open Spec

theorem dropWhile_all {α} (p : α → Bool) : ∀ l : List α, (∀ x ∈ l, p x = true) → l.dropWhile p = []
  | [], _ => rfl
  | x :: l, h => by
    rw [List.dropWhile_cons, if_pos (h x (by simp))]
    exact dropWhile_all p l (fun y hy => h y (by simp [hy]))

theorem rstrip_spec (s : Str) : ∃ ws, s = rstrip s ++ ws ∧ (∀ x ∈ ws, isSpace x = true) ∧
    (∀ x, (rstrip s).getLast? = some x → isSpace x = false) := by
  refine ⟨(s.reverse.takeWhile isSpace).reverse, ?_, ?_, ?_⟩
  · unfold rstrip
    rw [← List.reverse_append, List.takeWhile_append_dropWhile, List.reverse_reverse]
  · intro x hx
    rw [List.mem_reverse] at hx
    exact List.all_eq_true.1 (List.all_takeWhile) x hx
  · intro x hx
    unfold rstrip at hx
    rw [List.getLast?_reverse] at hx
    have := List.head?_dropWhile_not isSpace s.reverse
    rw [hx] at this
    simpa using this

theorem rstrip_eq_of (out ws : Str) (hws : ∀ x ∈ ws, isSpace x = true)
    (hl : ∀ x, out.getLast? = some x → isSpace x = false) : rstrip (out ++ ws) = out := by
  unfold rstrip
  rw [List.reverse_append, List.dropWhile_append]
  have h1 : (ws.reverse.dropWhile isSpace) = [] := by
    apply dropWhile_all; intro x hx; exact hws x (by simpa using hx)
  rw [h1]
  simp only [List.isEmpty_nil, if_true]
  cases h : out.reverse with
  | nil => simp at h; simp [h]
  | cons y ys =>
    have : out.getLast? = some y := by rw [← List.head?_reverse, h]; rfl
    have hy := hl y this
    simp [hy]
    have := congrArg List.reverse h
    simpa using this.symm

theorem rstrip_rstrip (s : Str) : rstrip (rstrip s) = rstrip s := by
  obtain ⟨ws, _, _, h3⟩ := rstrip_spec s
  have := rstrip_eq_of (rstrip s) [] (by simp) h3
  simpa using this

/-- The comment loop cuts at the first live percent. -/
theorem stripCommentLoop_spec (rest : Str) : ∀ rev, ∃ k, k ≤ rest.length ∧
    stripCommentLoop rev rest = rest.take k ∧
    (∀ j, j < k → liveAt (rev.reverse ++ rest) '%' (rev.length + j) = false) ∧
    (k < rest.length → liveAt (rev.reverse ++ rest) '%' (rev.length + k) = true) := by
  induction rest with
  | nil => intro rev; exact ⟨0, by simp, rfl, fun j h => by omega, fun h => by simp at h⟩
  | cons x rest ih =>
    intro rev
    have hz := liveAt_zip rev rest x '%'
    obtain ⟨k, h1, h2, h3, h4⟩ := ih (x :: rev)
    simp only [List.reverse_cons, List.append_assoc, List.singleton_append, List.length_cons] at h3 h4
    have go : (x == '%' && !isEscaped rev) = false → stripCommentLoop rev (x :: rest) = x :: stripCommentLoop (x :: rev) rest →
      ∃ k, k ≤ (x :: rest).length ∧
        stripCommentLoop rev (x :: rest) = (x :: rest).take k ∧
        (∀ j, j < k → liveAt (rev.reverse ++ x :: rest) '%' (rev.length + j) = false) ∧
        (k < (x :: rest).length → liveAt (rev.reverse ++ x :: rest) '%' (rev.length + k) = true) := by
      intro hnl heq
      refine ⟨k + 1, by simp; exact h1, by rw [heq, h2]; rfl, ?_, ?_⟩
      · intro j hj
        cases j with
        | zero => rw [Nat.add_zero, hz]; exact hnl
        | succ j =>
          have := h3 j (by omega)
          rwa [show rev.length + 1 + j = rev.length + (j + 1) by omega] at this
      · intro hk
        have := h4 (by simp at hk; omega)
        rwa [show rev.length + 1 + k = rev.length + (k + 1) by omega] at this
    by_cases hx : x = '%'
    · by_cases he : isEscaped rev = true
      · exact go (by simp [he]) (by simp [stripCommentLoop, hx, he])
      · refine ⟨0, by simp, by simp [stripCommentLoop, hx, he], fun j h => by omega, fun _ => ?_⟩
        rw [Nat.add_zero, hz]; simp [hx, he]
    · exact go (by simp [hx]) (by simp [stripCommentLoop, hx])

theorem commentFree_line (line : Str) : CommentFree line (rstrip (stripCommentLoop [] line)) := by
  obtain ⟨k, h1, h2, h3, h4⟩ := stripCommentLoop_spec line []
  simp only [List.reverse_nil, List.nil_append, List.length_nil, Nat.zero_add] at h3 h4
  obtain ⟨ws, g1, g2, g3⟩ := rstrip_spec (stripCommentLoop [] line)
  exact ⟨k, h1, h3, h4, ws, by rw [← h2]; exact g1, g2, g3⟩

theorem commentFree_unique {line out out' : Str} (h : CommentFree line out) (h' : CommentFree line out') :
    out = out' := by
  obtain ⟨k, h1, h2, h3, ws, h4, h5, h6⟩ := h
  obtain ⟨k', g1, g2, g3, ws', g4, g5, g6⟩ := h'
  have : k = k' := by
    rcases Nat.lt_trichotomy k k' with h | h | h
    · have := g2 k h; rw [h3 (by omega)] at this; cases this
    · exact h
    · have := h2 k' h; rw [g3 (by omega)] at this; cases this
  subst this
  rw [← rstrip_eq_of out ws h5 h6, ← rstrip_eq_of out' ws' g5 g6, ← h4, ← g4]

theorem Spec.CommentFree.no_live {line out : Str} (h : CommentFree line out) (j : Nat) :
    liveAt out '%' j = false := by
  obtain ⟨k, h1, h2, h3, ws, h4, h5, h6⟩ := h
  by_cases hj : j < out.length
  · have hk : j < k := by
      have := congrArg List.length h4
      simp at this; omega
    have e1 : out = (line.take k).take out.length := by rw [h4]; simp
    rw [e1, liveAt_take _ _ _ _ hj, liveAt_take _ _ _ _ hk]
    exact h2 j hk
  · unfold liveAt
    rw [List.getElem?_eq_none (by omega)]
    rfl

theorem Spec.CommentFree.mem {line out : Str} (h : CommentFree line out) {x : Char} (hx : x ∈ out) : x ∈ line := by
  obtain ⟨k, _, _, _, ws, h4, _, _⟩ := h
  have : x ∈ line.take k := by rw [h4]; simp [hx]
  exact List.mem_of_mem_take this

/-! ### splitlines -/

theorem splitLinesAux_cons_ne (acc : Str) (c : Char) (rest : Str) (h : isLineBreak c = false) :
    splitLinesAux acc (c :: rest) = splitLinesAux (c :: acc) rest := by
  conv => lhs; unfold splitLinesAux
  split
  · rename_i hx; cases hx
  · rename_i r hx
    injection hx with h1 h2
    subst h1; exact absurd h (by decide)
  · rename_i c' r' _ hx
    injection hx with h1 h2
    subst h1; subst h2
    simp [h]

theorem splitLinesAux_run (l : Str) (hl : ∀ x ∈ l, isLineBreak x = false) : ∀ (acc rest : Str),
    splitLinesAux acc (l ++ rest) = splitLinesAux (l.reverse ++ acc) rest := by
  induction l with
  | nil => intro acc rest; rfl
  | cons x l ih =>
    intro acc rest
    rw [List.cons_append, splitLinesAux_cons_ne _ _ _ (hl x (by simp)), ih (fun y hy => hl y (by simp [hy]))]
    simp

theorem splitLinesAux_break (acc : Str) (c : Char) (rest : Str) (h : isLineBreak c = true)
    (hcr : ¬ (c = '\r' ∧ rest.head? = some '\n')) :
    splitLinesAux acc (c :: rest) = acc.reverse :: splitLinesAux [] rest := by
  conv => lhs; unfold splitLinesAux
  split
  · rename_i hx; cases hx
  · rename_i r hx
    injection hx with h1 h2
    exact absurd ⟨h1, by rw [h2]; rfl⟩ hcr
  · rename_i c' r' _ hx
    injection hx with h1 h2
    subst h1; subst h2
    simp [h]

theorem splitLinesAux_crlf (acc rest : Str) :
    splitLinesAux acc ('\r' :: '\n' :: rest) = acc.reverse :: splitLinesAux [] rest := by
  conv => lhs; unfold splitLinesAux
  rfl

theorem Spec.IsLines.splitLines_eq {s : Str} {ls : List Str} (h : IsLines s ls) : splitLines s = ls := by
  unfold splitLines
  induction h with
  | nil => simp [splitLinesAux]
  | last l hne hl =>
    have := splitLinesAux_run l hl [] []
    simp only [List.append_nil] at this
    rw [this]
    simp [splitLinesAux, hne]
  | crlf l rest ls hl _ ih =>
    rw [splitLinesAux_run l hl [], splitLinesAux_crlf, ih]; simp
  | brk l c rest ls hl hc hcr _ ih =>
    rw [splitLinesAux_run l hl [], splitLinesAux_break _ _ _ hc hcr, ih]; simp

theorem exists_isLines (s : Str) : ∃ ls, IsLines s ls := by
  suffices H : ∀ n (s : Str), s.length ≤ n → ∃ ls, IsLines s ls from H s.length s (Nat.le_refl _)
  intro n
  induction n with
  | zero =>
    intro s hs
    have : s = [] := List.eq_nil_of_length_eq_zero (by omega)
    subst this; exact ⟨[], .nil⟩
  | succ n ih =>
    intro s hs
    have hsplit := List.takeWhile_append_dropWhile (p := fun x => !isLineBreak x) (l := s)
    have hl : ∀ x ∈ s.takeWhile (fun x => !isLineBreak x), isLineBreak x = false := by
      intro x hx
      have := List.all_eq_true.1 (List.all_takeWhile (p := fun x => !isLineBreak x) (l := s)) x hx
      simpa using this
    generalize s.takeWhile (fun x => !isLineBreak x) = l at *
    have hd := List.head?_dropWhile_not (fun x => !isLineBreak x) s
    generalize s.dropWhile (fun x => !isLineBreak x) = r at *
    cases r with
    | nil =>
      simp at hsplit
      subst hsplit
      by_cases h : l = []
      · subst h; exact ⟨[], .nil⟩
      · exact ⟨[l], .last l h hl⟩
    | cons c rest =>
      simp at hd
      have hlen : l.length + (rest.length + 1) = s.length := by rw [← hsplit]; simp
      by_cases hcr : c = '\r' ∧ rest.head? = some '\n'
      · obtain ⟨h1, h2⟩ := hcr
        cases rest with
        | nil => simp at h2
        | cons y ys =>
          simp at h2
          subst h1; subst h2
          simp at hlen
          obtain ⟨ls, hls⟩ := ih ys (by omega)
          exact ⟨_, hsplit ▸ IsLines.crlf l ys ls hl hls⟩
      · obtain ⟨ls, hls⟩ := ih rest (by omega)
        exact ⟨_, hsplit ▸ IsLines.brk l c rest ls hl hd hcr hls⟩

theorem splitLines_isLines (s : Str) : IsLines s (splitLines s) := by
  obtain ⟨ls, h⟩ := exists_isLines s
  rw [h.splitLines_eq]; exact h

theorem Spec.IsLines.no_break {s : Str} {ls : List Str} (h : IsLines s ls) :
    ∀ l ∈ ls, ∀ x ∈ l, isLineBreak x = false := by
  induction h with
  | nil => simp
  | last l _ hl => simpa using hl
  | crlf l rest ls hl _ ih => simp only [List.mem_cons, forall_eq_or_imp]; exact ⟨hl, ih⟩
  | brk l c rest ls hl _ _ _ ih => simp only [List.mem_cons, forall_eq_or_imp]; exact ⟨hl, ih⟩

theorem joinWith_isLines : ∀ (ls : List Str), (∀ l ∈ ls, ∀ x ∈ l, isLineBreak x = false) →
    ls.getLast? ≠ some [] → IsLines (joinWith ['\n'] ls) ls
  | [], _, _ => .nil
  | [l], h, hl => .last l (by simpa using hl) (h l (by simp))
  | l :: m :: ls, h, hl => by
    have ih := joinWith_isLines (m :: ls) (fun l' h' => h l' (by simp at h' ⊢; right; exact h'))
      (by simpa using hl)
    have := IsLines.brk l '\n' (joinWith ['\n'] (m :: ls)) (m :: ls) (h l (by simp)) (by decide)
      (by simp) ih
    simpa [joinWith] using this

/-- No live `%` in a join of lines without live `%`. -/
theorem joinWith_no_live : ∀ (ls : List Str), (∀ l ∈ ls, ∀ j, liveAt l '%' j = false) →
    ∀ j, liveAt (joinWith ['\n'] ls) '%' j = false
  | [], _, j => by simp [joinWith, liveAt]
  | [l], h, j => by simpa [joinWith] using h l (by simp) j
  | l :: m :: ls, h, j => by
    have ih := joinWith_no_live (m :: ls) (fun l' h' => h l' (by simp at h' ⊢; right; exact h'))
    have e : joinWith ['\n'] (l :: m :: ls) = l ++ '\n' :: joinWith ['\n'] (m :: ls) := by simp [joinWith]
    rw [e]
    generalize joinWith ['\n'] (m :: ls) = r at *
    by_cases hj : j < l.length
    · have := liveAt_take (l ++ '\n' :: r) '%' l.length j hj
      rw [← this]
      simpa using h l (by simp) j
    · by_cases hj' : j = l.length
      · subst hj'
        simp [liveAt]
      · obtain ⟨k, rfl⟩ : ∃ k, j = (l.length + 1) + k := ⟨j - (l.length + 1), by omega⟩
        have hesc : escapedAt (l ++ '\n' :: r) (l.length + 1) = false :=
          escapedAt_succ_of_ne (x := '\n') (by simp) (by decide)
        have := liveAt_drop (l ++ '\n' :: r) '%' (l.length + 1) hesc k
        rw [← this]
        have e2 : (l ++ '\n' :: r).drop (l.length + 1) = r := by
          have : l ++ '\n' :: r = (l ++ ['\n']) ++ r := by simp
          rw [this, show l.length + 1 = (l ++ ['\n']).length by simp, List.drop_left]
        rw [e2]; exact ih k

end L2J
