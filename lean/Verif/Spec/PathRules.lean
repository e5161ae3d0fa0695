import Verif.Spec.Landlock
import Verif.Spec.CliValues
/-! What the options of minijail0 that name paths ask for (minijail0.1), and what a process that landlock restricts may do (landlock(7)). For C71. -/
set_option autoImplicit false
namespace Minijail.Spec

/-- The options that allow one path, with the rights they allow there; `refer`: the kernel knows right 13. -/
def pathKinds (refer : Bool) : List (String × List Nat) :=
  [("fs-path-ro", readBits), ("fs-path-rx", 0 :: readBits), ("fs-path-rw", readBits ++ changeBits ++ [7, 8]),
   ("fs-path-advanced-rw", readBits ++ changeBits ++ createBits ++ if refer then [13] else [])]

/-- The paths for common programs. -/
def commonPaths : List (BStr × List Nat) :=
  ["/lib", "/lib64", "/usr/lib", "/usr/lib64", "/bin", "/sbin", "/usr/sbin", "/usr/bin"].map (fun p => (bstr p, 0 :: readBits)) ++
    ["/etc/group", "/etc/passwd"].map fun p => (bstr p, readBits)

/-- The paths and rights that one option asks for. -/
structure PathsOf (refer : Bool) (p : Nat × Option CStr) (rs : List (BStr × List Nat)) : Prop where
  one : ∀ name bits, (name, bits) ∈ pathKinds refer → long name p.1 → ∃ a, p.2 = some a ∧ rs = [(bytesOf a, bits)]
  common : long "fs-default-paths" p.1 → rs = commonPaths
  other : (∀ x ∈ pathKinds refer, ¬ long x.1 p.1) → ¬ long "fs-default-paths" p.1 → rs = []

/-- A mount's place can be read, and what is there executed; if it is not mounted read-only, or what is mounted there later is seen elsewhere, also changed. -/
def mountPaths (refer : Bool) (m : Mountpoint) : List (BStr × List Nat) :=
  (m.dest, 0 :: readBits) :: if m.flags &&& 1#64 = 0#64 ∨ m.flags &&& 0x100000#64 ≠ 0#64 ∨ m.flags &&& 0x80000#64 ≠ 0#64 then
    [(m.dest, readBits ++ changeBits ++ createBits ++ if refer then [13] else [])] else []

/-- The paths of a profile: those of the mounts, those for common programs, and /dev, /proc and /tmp. -/
def profilePaths (refer : Bool) (ms : List Mountpoint) : List (BStr × List Nat) :=
  ms.flatMap (mountPaths refer) ++ commonPaths ++
    [(bstr "/dev", readBits ++ changeBits), (bstr "/proc", readBits), (bstr "/tmp", readBits ++ changeBits ++ [7, 8])]

/-- The paths and rights that the options ask for. -/
def AskedPaths (env : CliEnv) (refer : Bool) (opts : Options) (rules : List (BStr × List Nat)) : Prop :=
  ∃ parts mounts more, List.Forall₂ (PathsOf refer) opts parts ∧ List.Forall₂ (MountsOf env.consts.named) opts mounts ∧ rules = parts.flatten ++ more ∧
    (GivenLong opts "profile" → more = profilePaths refer mounts.flatten) ∧ (Without opts (long "profile") → more = [])

/-- Landlock lets a process use right `i` on a file; `above`: the paths that name the file or a directory above it. A right the ruleset does not handle is not
restricted. -/
def allows (above : BStr → Prop) (i : Nat) : Restriction → Prop
  | .none => True
  | .rules handled rs => handled.getLsbD i = false ∨ ∃ k ∈ rs, above k.path ∧ k.allowed.getLsbD i = true

end Minijail.Spec
