import Verif.Props.C64l
/-! C64: single documents the preprocessor reads wrongly. -/
namespace L2J.Pre
open Cmds Defn L2J.Spec

/-- C64 is violated: what is defined before `\documentclass` is forgotten. -/
theorem C64_violated_before_class : made "\\def\\a{x}\n\\documentclass{article}\\a y" = some "\\a y".toList := by decide +kernel

/-- C64 is violated: a word behind a line break `\\` is taken for a command. -/
theorem C64_violated_linebreak : made "\\def\\alpha{B}x\\\\alpha c" = some "x\\B c".toList := by decide +kernel

/-- C64 is violated: a group does not end a definition. -/
theorem C64_violated_group : made "{\\def\\a{x}\\a}\\a" = some "{x}x".toList := by decide +kernel

/-- C64 is violated: an accent is taken for a quotation mark. -/
theorem C64_violated_accent : made "\\`a x' y" = some "\\'a x' y".toList := by decide +kernel

/-- C64 is violated: a command without arguments that is redefined with one keeps its old meaning. -/
theorem C64_violated_redefined : made "\\def\\a{x}\\a{y}\\renewcommand{\\a}[1]{<#1>}\\a{y}" = some "x{y}\\renewcommand{\\a}[1]{<#1>}x{y}".toList := by decide +kernel

/-- C64 is violated: a built-in layout command hides the user's own definition, even that of a longer name. -/
theorem C64_violated_shadowed : made "\\def\\quadratic{q}\\quadratic" = some "ratic".toList ∧ made "\\renewcommand{\\par}{q}a\\par b" = some "a b".toList := by
  refine ⟨?_, ?_⟩ <;> decide +kernel

end L2J.Pre
