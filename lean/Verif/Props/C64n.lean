import Verif.Props.C64l
/-! C64: more documents the preprocessor reads wrongly. -/
namespace L2J.Pre
open Cmds Defn L2J.Spec

/-- C64 is violated: `\par` does not end a paragraph. -/
theorem C64_violated_par : made "a\\par b" = some "a b".toList ∧ made "a\n\nb" = some "a\nb".toList := by
  refine ⟨?_, ?_⟩ <;> decide +kernel

/-- C64 is violated: a switch that is off does not turn off its text. -/
theorem C64_violated_switch : made "\\newif\\ifa\\afalse\\ifa x\\else y\\fi" = some "x".toList := by decide +kernel

/-- C64 is violated: both branches of a conditional with an `@` in its name are lost. -/
theorem C64_violated_at : made "\\newif\\if@a\\@atrue\\if@a x\\else y\\fi." = some ".".toList ∧ made "\\@ifundefined{x}{a}{b}." = some ".".toList := by
  refine ⟨?_, ?_⟩ <;> decide +kernel

/-- C64 is violated: what stands in a program listing is changed. -/
theorem C64_violated_verbatim : made "\\begin{verbatim}``a''\\end{verbatim}" = some "\\begin{verbatim}\"a\"\\end{verbatim}".toList ∧
    made "\\verb|\\def\\a{x}\\quad\\a|" = some "\\verb| x|".toList := by
  refine ⟨?_, ?_⟩ <;> decide +kernel

/-- C64 is violated: a line break in front of a formula hides the formula's first dollar sign. -/
theorem C64_violated_dollar : made "\\def\\m{M}a\\\\$x$ \\m $y$" = some "a\\\\$x$ \\m $y$".toList := by decide +kernel

/-- C64 is violated: the space of a line break is taken for the beginning of a formula, and what follows it is kept as it is. -/
theorem C64_violated_breakspace : made "\\def\\a{A}x\\\\[1ex] \\a{} y \\[z\\]" = some "x\\\\[1ex] \\a{} y \\[z\\]".toList := by decide +kernel

/-- C64 is violated: `\ensuremath` that is not closed is an error. -/
theorem C64_violated_ensuremath : made "\\ensuremath{x}" = some "x".toList ∧ made "\\ensuremath{x" = none := by
  refine ⟨?_, ?_⟩ <;> decide +kernel

/-- C64 is violated: `\addto\a{…}` loses the text in front of a group inside, and a brace. -/
theorem C64_violated_addto : made "\\addto\\a{b{c}d}" = some "{c}d}".toList ∧ made "\\addto\\a{b}{c}" = some "{c}".toList := by
  refine ⟨?_, ?_⟩ <;> decide +kernel

end L2J.Pre
