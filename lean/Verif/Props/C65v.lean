import Verif.Props.C65t
import Verif.Props.C67
/-! C65: the parser as a whole; accents. -/
namespace L2J.Psr
open Cmds Defn L2J.Spec
open Pre (not_word Without.sub)

def accentSigns : List Char := ['\'', '`', '"', '^', '=', '.']

theorem accent_signs : ∀ c ∈ accentSigns, c ∈ signs ∧ '\\' :: [c] ∉ Spec.layoutWords.map String.toList ∧ secondNot c openWords = true ∧ secondNot c spaceWords = true ∧ c ∉ [',', ';', ':', '!'] ∧ c ≠ '/' ∧ lowerChar c = c ∧
    (∀ v ∈ anyCaseWords, v.toList.head? ≠ some c ∧ v.toList ≠ []) := by decide +kernel

theorem accent_layout {c : Char} (hc : c ∈ accentSigns) (t : Str) : NotLayout [c] t := by
  obtain ⟨_, h1, h2, h3, h4, h5, h6, h7⟩ := accent_signs c hc
  refine ⟨⟨fun hm => absurd hm h1, without_second (r := []) h2, fun v hv hp => ?_, ?_, by simpa using h5⟩, without_second (r := []) h3, by simpa using h4⟩
  · obtain ⟨g1, g2⟩ := h7 v hv
    cases hn : v.toList with
    | nil => exact g2 hn
    | cons d n' =>
      rw [hn] at hp g1
      obtain ⟨u, hu⟩ := hp
      simp at hu g1
      exact g1 (by rw [hu.1, h6])
  · rintro ⟨a, b, e⟩
    have := congrArg List.length e
    simp at this
    omega

def accentName (e : String × Nat) : Bool :=
  (passes e.1.toList && notFirsts e.1.toList && notContents e.1.toList && notMiddles e.1.toList && notLayouts e.1.toList) || accentSigns.any (fun c => e.1.toList == [c]) || e.1 == "~"

theorem accent_table : accentTable.all accentName = true := by decide +kernel

/-- An accent comes to its handler. -/
theorem reach_accent {V X} {cfg : Cfg V X} (ho : SomeOrder cfg.order) (hl : Letters cfg.cmds) (p : Parse V X) (n : Nat) {h} {st : St V X} (k : Known cfg h st) (toks : List Tok) (space : Bool) {a : String} {mark : Nat}
    {arg base rest : Str} (hk : (a, mark) ∈ accentTable) (hne : a ≠ "~") (harg : AccentArg a arg base) (hu : ∀ y ∈ h, ¬ Meant y.1 a.toList)
    (hp : ¬ Contains (arg ++ rest) ("\\end".toList ++ a.toList)) (hod : ∀ c ∈ (arg ++ rest).head?, oddLetter c = false) :
    actAt cfg p n .default st toks space ('\\' :: (a.toList ++ (arg ++ rest))) = actHandlers cfg p n .default st toks space ('\\' :: (a.toList ++ (arg ++ rest))) ∧
      handlers cfg p n st toks ('\\' :: (a.toList ++ (arg ++ rest))) = diacritics cfg p st toks ('\\' :: (a.toList ++ (arg ++ rest))) := by
  have ht := List.all_eq_true.1 accent_table _ hk
  unfold accentName at ht
  simp only [Bool.or_eq_true, List.any_eq_true, beq_iff_eq] at ht
  rcases ht with (ht | ⟨c, hc, ht⟩) | ht
  · simp only [Bool.and_eq_true] at ht
    obtain ⟨⟨⟨⟨t1, t2⟩, t3⟩, t4⟩, t5⟩ := ht
    have hlet : a.toList ≠ [] ∧ ∀ c ∈ a.toList, isLetter c = true := by
      unfold passes at t1
      simp only [Bool.and_eq_true] at t1
      exact ⟨fun e => by simp [e] at t1, fun c hc => List.all_eq_true.1 t1.1.1.1.2 c hc⟩
    have hy : NameEnds (arg ++ rest) := fun c hc => arg_head harg rest (List.all_eq_true.2 hlet.2) c hc
    have he : Ends a.toList (arg ++ rest) := .inl ⟨hlet.1, hlet.2, hy⟩
    refine ⟨actAt_passed hl p n .default k toks space (passes_spec t1 hy hu), ?_⟩
    rw [handlers_first cfg ho p n st toks (notFirsts_spec t2 hy hod), content_none cfg p st toks he (notContents_spec t3 hod), orElse_none,
      handlers_middle cfg p st toks hlet.2 hy (notMiddles_spec t4 hy hp), formatting_none cfg p st toks he (notLayouts_spec t5 hy hod), orElse_none]
  · obtain ⟨hs, _⟩ := accent_signs c hc
    rw [ht] at hu ⊢
    obtain ⟨h1, h2⟩ := reach_sign ho hl p n k toks space hs hu hod
    refine ⟨h1, ?_⟩
    rw [h2, formatting_none cfg p st toks (.inr ⟨c, rfl, (sign_facts c hs).2.1⟩) (accent_layout hc _), orElse_none]
  · exact absurd ht hne

theorem Acts.accent {V X} {cfg : Cfg V X} (ho : SomeOrder cfg.order) (hl : Letters cfg.cmds) {h} {st : St V X} (k : Known cfg h st) {toks toks' : List Tok} (space : Bool) {a : String} {mark : Nat}
    {arg base rest : Str} (hk : (a, mark) ∈ accentTable) (hne : a ≠ "~") (harg : AccentArg a arg base) (hu : ∀ y ∈ h, ¬ Meant y.1 a.toList)
    (hp : ¬ Contains (arg ++ rest) ("\\end".toList ++ a.toList)) (hod : ∀ c ∈ (arg ++ rest).head?, oddLetter c = false)
    (had : Adds false (.mk st.next "text".toList (.str (withAccent cfg.nfc mark base)) [] none) toks toks') :
    Acts cfg st toks space ('\\' :: (a.toList ++ (arg ++ rest))) st.fresh ⟨toks', endsBlank space ('\\' :: (a.toList ++ arg)), rest⟩ := by
  refine ⟨0, fun m _ => ?_⟩
  obtain ⟨h1, h2⟩ := reach_accent ho hl (parse cfg m) m k toks space hk hne harg hu hp hod
  rw [h1]
  unfold actHandlers
  rw [h2, C67_accent_partial cfg (parse cfg m) st toks hk harg rest]
  have : single cfg (parse cfg m) false st toks "text".toList (.str (withAccent cfg.nfc mark base)) [] ('\\' :: (a.toList ++ arg)).length = .ok st.fresh (toks', (('\\' :: (a.toList ++ arg)).length : Nat)) := by
    unfold single
    rw [show processTok cfg (parse cfg m) false st.fresh (newTok st "text".toList (.str (withAccent cfg.nfc mark base)) []) toks = .ok st.fresh toks' from ?_]
    · rfl
    show processTok cfg (parse cfg m) false st.fresh (.mk st.next "text".toList (.str (withAccent cfg.nfc mark base)) [] none) toks = _
    rw [process_plain cfg _ _ (.mk st.next "text".toList _ [] none) toks (show "text".toList ∉ ownTypes by decide)]
    unfold add
    rw [adds_spec had]
  rw [this]
  simp only [orElse, Res.bind]
  rw [show '\\' :: (a.toList ++ (arg ++ rest)) = ('\\' :: (a.toList ++ arg)) ++ rest by simp, move_ok _ _ _ _ _ rfl]

theorem accent_last {a : String} {arg base : Str} (h : AccentArg a arg base) : ∃ z, ('\\' :: (a.toList ++ arg)).getLast? = some z ∧ isSpace z = false := by
  cases h with
  | group ws body _ _ _ => exact ⟨'}', by simp [List.getLast?_append, List.getLast?_cons], by decide⟩
  | char ws c _ hc _ _ _ => exact ⟨c, by simp [List.getLast?_append, List.getLast?_cons], hc⟩

end L2J.Psr
