/-! The options of minijail0 (minijail0.1): which exist, and which need an argument. -/
set_option autoImplicit false
namespace Minijail.Spec

/-- The one-letter options. -/
def optionLetters : List Char := "abcdefghiklmnprstuvwyzBCGHIKLMNPRSTUVY".toList

/-- The one-letter options that need an argument. -/
def lettersWithArgument : List Char := "abcfgkuBCPRSTV".toList

/-- The long options that need an argument. -/
def longWithArgument : List String :=
  ["logging", "profile", "preload-library", "seccomp-bpf-binary", "add-suppl-group", "config", "gen-config", "env-add",
   "mount", "bind-mount", "fs-path-rx", "fs-path-ro", "fs-path-rw", "fs-path-advanced-rw", "preserve-fd"]

/-- The option needs an argument. -/
def NeedsArgument (key : List Char) : Prop :=
  (∃ c ∈ lettersWithArgument, key = [c]) ∨ ∃ n ∈ longWithArgument, key = n.toList

end Minijail.Spec
