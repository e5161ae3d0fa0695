import Verif.Model.OfflineParse
/-!
The tool that makes a policy of traces: tools/generate_seccomp_policy.py, for traces of strace. (Logs of the audit subsystem, and
the guess which of the two a file is, are in `GenerateAudit`. `--verbose`, which prints messages, is not modelled. As in `OfflineParse`, the class `\s` is that of ASCII, and so
is `\d`. Exceptions are `none`.)
-/
set_option autoImplicit false
namespace Minijail.Generate
open Offline

/-- `str.split(d)` for a character, called at tools/generate_seccomp_policy.py:179, 213. -/
def pySplit (d : Char) : CStr → List CStr
  | [] => [[]]
  | c :: s =>
    if c = d then [] :: pySplit d s
    else
      match pySplit d s with
      | [] => [[c]]
      | w :: ws => (c :: w) :: ws

/-- `str.strip()`, called at tools/generate_seccomp_policy.py:179, 213. -/
def pyStrip (s : CStr) : CStr := (((s.dropWhile isPySpace).reverse).dropWhile isPySpace).reverse

/-- `w in s` for strings, tools/generate_seccomp_policy.py:190-192. -/
def contains (w : CStr) : CStr → Bool
  | [] => w.isPrefixOf []
  | c :: s => w.isPrefixOf (c :: s) || contains w s

/-- The end of `LINE_RE`, tools/generate_seccomp_policy.py:36: `([a-zA-Z0-9_]+)\(([^)<]*)`, with its groups. -/
def nameAt (s : CStr) : Option (CStr × CStr) :=
  let w := s.takeWhile isPyWord
  match s.drop w.length with
  | '(' :: t => if w = [] then none else some (w, t.takeWhile fun c => c != ')' && c != '<')
  | _ => none

/-- `LINE_RE.match`, tools/generate_seccomp_policy.py:36, 196: blanks, a tag in brackets or a number that may be missing, blanks, then `nameAt`. The number is as long
as it can be (the expression takes digits back if it does not match otherwise). -/
def lineRe (line : CStr) : Option (CStr × CStr) :=
  match line.dropWhile isPySpace with
  | '[' :: t =>
    match t.dropWhile (· != ']') with
    | _ :: r => nameAt (r.dropWhile isPySpace)
    | [] => none
  | s => ((List.range ((s.takeWhile Char.isDigit).length + 1)).reverse).findSome? fun k => nameAt ((s.drop k).dropWhile isPySpace)

/-- `SOCKETCALLS`, tools/generate_seccomp_policy.py:38-56. -/
def socketcalls : List CStr :=
  ["accept", "bind", "connect", "getpeername", "getsockname", "getsockopt", "listen", "recv", "recvfrom", "recvmsg", "send", "sendmsg", "sendto", "setsockopt",
   "shutdown", "socket", "socketpair"].map String.toList

/-- The values of `PRIVATE_ARM_SYSCALLS`, tools/generate_seccomp_policy.py:60-66. -/
def privateArm : List CStr := ["ARM_breakpoint", "ARM_cacheflush", "ARM_usr26", "ARM_usr32", "ARM_set_tls"].map String.toList

/-- The keys of `arg_inspection` with `arg_index`, tools/generate_seccomp_policy.py:324-331. -/
def inspectedArg (syscall : CStr) : Option Nat :=
  if syscall = "socket".toList then some 0
  else if syscall = "ioctl".toList then some 1
  else if syscall = "prctl".toList then some 0
  else if syscall = "mmap".toList then some 2
  else if syscall = "mmap2".toList then some 2
  else if syscall = "mprotect".toList then some 2
  else none

/-- `syscalls`, a dictionary with its keys in the order in which they came, and the sets `value_set` of `arg_inspection` (in the order in which their elements came;
`get_seccomp_bpf_filter` sees them in an order of its own). tools/generate_seccomp_policy.py:322-331. -/
structure Seen where
  syscalls : List (CStr × Nat)
  values : CStr → List CStr

/-- `syscalls[syscall] += 1`, tools/generate_seccomp_policy.py:211. -/
def count (syscall : CStr) : List (CStr × Nat) → List (CStr × Nat)
  | [] => [(syscall, 1)]
  | x :: l => if x.1 = syscall then (x.1, x.2 + 1) :: l else x :: count syscall l

/-- `value_set.add`, tools/generate_seccomp_policy.py:217. -/
def addValue (syscall v : CStr) (values : CStr → List CStr) : CStr → List CStr :=
  fun x => if x = syscall then (if v ∈ values x then values x else values x ++ [v]) else values x

/-- The name of the system call that strace wrote as `syscall`, tools/generate_seccomp_policy.py:201-209. -/
def calledName (usesSocketcall : Bool) (syscall : CStr) : CStr :=
  let s := if usesSocketcall ∧ syscall ∈ socketcalls then "socketcall".toList else syscall
  if "ARM_".toList ++ s ∈ privateArm then "ARM_".toList ++ s else s

/-- One line of a trace, tools/generate_seccomp_policy.py:195-217. An argument that is missing is an exception. -/
def parseLine (usesSocketcall : Bool) (st : Seen) (line : CStr) : Option Seen :=
  match lineRe line with
  | none => some st
  | some m =>
    let syscall := calledName usesSocketcall m.1
    let args := (pySplit ',' m.2).map pyStrip
    match inspectedArg syscall with
    | none => some ⟨count syscall st.syscalls, st.values⟩
    | some i =>
      match args[i]? with
      | none => none
      | some v => some ⟨count syscall st.syscalls, addValue syscall v st.values⟩

/-- `uses_socketcall`, tools/generate_seccomp_policy.py:190-192. -/
def usesSocketcall (filename : CStr) : Bool := contains "i386".toList filename || (contains "x86".toList filename && !contains "64".toList filename)

/-- `parse_trace_file`, tools/generate_seccomp_policy.py:188-217. A file is its name and its text. -/
def parseTraceFile (st : Seen) (file : CStr × CStr) : Option Seen := (pyLines file.2).foldlM (parseLine (usesSocketcall file.1)) st

/-- `get_seccomp_bpf_filter`, tools/generate_seccomp_policy.py:165-185. `order` is the order in which Python goes through a set. -/
def argFilter (order : List CStr → List CStr) (syscall : CStr) (i : Nat) (values : List CStr) : CStr :=
  let both (v : CStr) : Bool := let names := (pySplit '|' v).map pyStrip; "PROT_EXEC".toList ∈ names ∧ "PROT_WRITE".toList ∈ names
  let atoms :=
    if syscall ∈ ["mmap".toList, "mmap2".toList, "mprotect".toList] ∧ i = 2 ∧ (order values).all (fun v => !both v) then
      ["arg2 in ~PROT_EXEC".toList, "arg2 in ~PROT_WRITE".toList]
    else (order values).map fun v => "arg".toList ++ Nat.toDigits 10 i ++ " == ".toList ++ v
  List.intercalate " || ".toList atoms

/-- `basic_set`, tools/generate_seccomp_policy.py:351-356. -/
def basicSet : List CStr := ["restart_syscall", "exit", "exit_group", "rt_sigreturn"].map String.toList

/-- The basic set is added, tools/generate_seccomp_policy.py:357-359. -/
def addBasic (l : List (CStr × Nat)) : List (CStr × Nat) :=
  basicSet.foldl (fun l n => if n ∈ l.map Prod.fst then l else l ++ [(n, 1)]) l

/-- `<=` of strings: by code points. Used by `sorted`, tools/generate_seccomp_policy.py:375. -/
def strLe : CStr → CStr → Bool
  | [], _ => true
  | _ :: _, [] => false
  | a :: s, b :: t => a.toNat < b.toNat || (a == b && strLe s t)

/-- Puts `x` before the first element that may come after it. -/
def sortedInsert {α : Type} (le : α → α → Bool) (x : α) : List α → List α
  | [] => [x]
  | y :: l => if le x y then x :: y :: l else y :: sortedInsert le x l

/-- `sorted`, called at tools/generate_seccomp_policy.py:369-376: a stable sort (here by insertion). -/
def pySorted {α : Type} (le : α → α → Bool) : List α → List α
  | [] => []
  | x :: l => sortedInsert le x (pySorted le l)

/-- `sorted_syscalls`, tools/generate_seccomp_policy.py:366-376: by frequency, the most frequent first, or by name if there is a frequency file. -/
def sortedSyscalls (frequency : Bool) (l : List (CStr × Nat)) : List (CStr × Nat) :=
  if frequency then pySorted (fun a b => strLe a.1 b.1) l else pySorted (fun a b => decide (b.2 ≤ a.2)) l

/-- `NOTICE`, tools/generate_seccomp_policy.py:26-30, as `print` writes it (378, 380). -/
def notice (year : CStr) : CStr :=
  "# Copyright ".toList ++ year ++ " The ChromiumOS Authors\n# Use of this source code is governed by a BSD-style license that can be\n# found in the LICENSE file.\n\n".toList

/-- The filter of a system call, tools/generate_seccomp_policy.py:383-388. -/
def filterOf (order : List CStr → List CStr) (st : Seen) (syscall : CStr) : CStr :=
  match inspectedArg syscall with
  | some i => argFilter order syscall i (st.values syscall)
  | none => "1".toList

/-- The end of `main`, tools/generate_seccomp_policy.py:350-391: the text of the policy, and of the frequency file if there is one. `year` is the year of the notice. -/
def policyOf (year : CStr) (order : List CStr → List CStr) (frequency : Bool) (st : Seen) : CStr × Option CStr :=
  let l := sortedSyscalls frequency (addBasic st.syscalls)
  let policy := notice year ++ (l.map fun x => x.1 ++ ": ".toList ++ filterOf order st x.1 ++ ['\n']).flatten
  let freq := notice year ++ (l.map fun x => x.1 ++ ": ".toList ++ Nat.toDigits 10 x.2 ++ ['\n']).flatten
  (policy, if frequency then some freq else none)

/-- `main`, tools/generate_seccomp_policy.py:312-391, with traces only (with logs it is `generateMain` in `GenerateAudit`). -/
def generate (year : CStr) (order : List CStr → List CStr) (frequency : Bool) (traces : List (CStr × CStr)) : Option (CStr × Option CStr) := do
  let st ← traces.foldlM parseTraceFile ⟨[], fun _ => []⟩
  return policyOf year order frequency st

end Minijail.Generate
