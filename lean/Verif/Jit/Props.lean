import Verif.Jit.Load
import Verif.Jit.Once

/-!
# C65: loading a source file puts its headers in place, once each, and changes nothing else
-/

namespace Verif
namespace Jit

/-- Normalising an absolute path leads to the same file without `.` and `..`. -/
theorem C65_normalize {cs : List Str} (h : ∀ c ∈ cs, Name c) : normalize (joinPath cs) = (resolve [] cs >>= fun r => .ok (joinPath r)) :=
  normalize_resolve h

example : normalize "/a/b/../../c/./d.h".toList = .err .major := by decide +kernel

example : normalize "/a/b/../c/./d.h".toList = .ok "/a/c/d.h".toList := by decide +kernel

example : joinPath (["a", "b", "..", "c", ".", "d.h"].map String.toList) = "/a/b/../c/./d.h".toList ∧ resolve [] ["a".toList, "b".toList, "..".toList, "c".toList, ".".toList, "d.h".toList] =
    .ok ["a".toList, "c".toList, "d.h".toList] := by decide +kernel

/-- C65: a source may be given as path, colon and name of the function; whether it exists is decided by the path alone. -/
theorem C65_colon (fs : Str → Option Str) {p name : Str} (h : ':' ∉ name) : checkFilePath fs (p ++ ':' :: name) = (fs p).isSome := by
  rw [checkFilePath, strrchr_at h]
  simp

example : checkFilePath (fun p => if p = "/q/a.h".toList then some [] else none) "/q/a.h:f".toList = true := by decide

/-- Loading succeeds, given enough room on the stack, and yields the lines of the file with the headers in place: those named in quotes, and
those of the library, unless they have been included before. Other lines stay as they are. Partial: files where a directive is within a comment or
on the last line without a line break are left out, and so are empty files and files that include each other; see the witnesses. -/
theorem C65_load_partial {fs : Str → Option Str} {roots : List Str} {path : Str} {out inc : List Str} (h : Flat fs roots path [] out inc) :
    ∃ d0, ∀ d, d0 ≤ d → ∃ buf, loadToBuffer fs roots d path = .ok buf ∧ nonblank buf = out := by
  obtain ⟨d0, h⟩ := flat_load h
  refine ⟨d0, fun d hd => ?_⟩
  obtain ⟨buf, hl, hb⟩ := h d hd []
  refine ⟨buf, ?_, ?_⟩
  · rw [loadToBuffer, hl]; rfl
  · rw [hb, nonblank_nil, List.nil_append]

/-- The same for a further file that is put into the same buffer: headers that are there are not repeated. -/
theorem C65_load_more_partial {fs : Str → Option Str} {roots : List Str} {path : Str} {inc out inc' : List Str} (h : Flat fs roots path inc out inc') :
    ∃ d0, ∀ d, d0 ≤ d → ∀ buf, ∃ buf', load fs roots d path ⟨buf, inc⟩ = .ok ⟨buf', inc'⟩ ∧ nonblank buf' = nonblank buf ++ out :=
  flat_load h

/-- Whatever the files hold: if loading succeeds, then no header has been put in place twice, those from before are still known, and every
further one is named by a directive, directly or by way of further headers. -/
theorem C65_once {fs : Str → Option Str} {roots : List Str} {d : Nat} {path : Str} {st st' : St} (h : load fs roots d path st = .ok st')
    (hn : st.paths.Nodup) :
    st'.paths.Nodup ∧ (∃ new, st'.paths = st.paths ++ new) ∧
      ∀ b ∈ st'.paths, b ∈ st.paths ∨ Relation.TransGen (IncludesNew fs roots st.paths) path b := by
  obtain ⟨h1, h2, _, h4⟩ := load_spec d path st st' h
  exact ⟨h4 hn, h1, h2⟩

/-- Whatever the files hold: a file that includes itself, directly or by way of headers that are not there yet, is never loaded. -/
theorem C65_cycle {fs : Str → Option Str} {roots : List Str} {path : Str} {st : St} (h : Relation.TransGen (IncludesNew fs roots st.paths) path path)
    (d : Nat) (st' : St) : load fs roots d path st ≠ .ok st' := fun hl => (load_spec d path st st' hl).2.2.1 h

/-! ## Concrete runs -/

/-- A directory with files. -/
def dir (l : List (String × String)) (p : Str) : Option Str := ((l.find? fun e => e.1.toList == p).map fun e => e.2.toList)

/-- A source file, two headers in another directory that include a third one, and a header of the library. -/
def tree : List (String × String) :=
  [("/q/src/a.h", "// Operator\n#include <ceed/types.h>\n#include <math.h>\n#include <cuda.h>\n#include \"../lib/b.h\"\n# include \"../lib/./c.h\" // more\n\nint a;\n#pragma unroll\nint b;\n"),
   ("/q/lib/b.h", "#pragma once\n#include \"c.h\"\nint lib_b;\n"),
   ("/q/lib/c.h", "#pragma once\nint c;\n"),
   ("/root/ceed/types.h", "#define CeedInt int\n")]

example : (match loadToBuffer (dir tree) ["/none/".toList, "/root/".toList] 3 "/q/src/a.h".toList with
    | .ok b => nonblank b
    | _ => []) =
    ["// Operator".toList, "#define CeedInt int".toList, "#include <cuda.h>".toList, "int c;".toList, "int lib_b;".toList, "int a;".toList,
      "#pragma unroll".toList, "int b;".toList] := by decide +kernel

theorem plain_nohash {s : Str} (h1 : '\n' ∉ s) (h2 : '#' ∉ s) : Plain s := ⟨h1, fun A t e => absurd (by rw [e]; simp) h2⟩

theorem name_of {l : List Str} (h : l.all (fun c => !c.isEmpty && !c.contains '/') = true) : ∀ c ∈ l, Name c := by
  intro c hc
  have := List.all_eq_true.mp h c hc
  simp at this
  exact ⟨by simpa using this.1, by simpa using this.2⟩

/-- Two files of which one includes the other. -/
def pair : List (String × String) := [("/q/a.h", "#include \"b.h\"\nint a;\n#include \"b.h\"\n"), ("/q/b.h", "#pragma once\nint b;\n")]

/-- The hypotheses of the theorems are met. -/
example : Flat (dir pair) [] "/q/a.h".toList [] ["int b;".toList, "int a;".toList] ["/q/b.h".toList] := by
  have ht : Target (dir pair) [] "/q/a.h".toList (.loc [] [' '] "b.h".toList []) "/q/b.h".toList :=
    .loc (ds := ["q".toList]) (f := "a.h".toList) (cs := ["b.h".toList]) (r := ["q".toList, "b.h".toList]) (by decide +kernel) (by decide +kernel)
      (name_of (by decide +kernel)) (name_of (by decide +kernel)) (by decide +kernel)
  have hok : (Line.loc [] [' '] "b.h".toList []).Ok :=
    ⟨fun c hc => absurd hc (by simp), fun c hc => by simpa using hc, by decide, plain_nohash (by decide) (by decide)⟩
  have hb : Flat (dir pair) [] "/q/b.h".toList [] ["int b;".toList] [] :=
    .file (ls := [.once [] [' '] [], .text "int b;".toList]) (last := []) (out := ["int b;".toList]) (by decide +kernel) (by decide +kernel)
      (plain_nohash (by simp) (by simp))
      (.once ⟨fun c hc => absurd hc (by simp), fun c hc => by simpa using hc, plain_nohash (by decide) (by decide)⟩
        (.text (s := "int b;".toList) (plain_nohash (by decide) (by decide)) .nil))
  exact .file (ls := [.loc [] [' '] "b.h".toList [], .text "int a;".toList, .loc [] [' '] "b.h".toList []]) (last := [])
    (out := ["int b;".toList, "int a;".toList]) (by decide +kernel) (by decide +kernel) (plain_nohash (by simp) (by simp))
    (.incl hok ht (by simp) hb (.text (s := "int a;".toList) (out := []) (plain_nohash (by decide) (by decide)) (.seen hok ht (by decide +kernel) .nil)))

/-! ## Where the code disagrees -/

/-- Two headers that include each other, with `#pragma once` in both. -/
def cyclic : List (String × String) := [("/q/a.h", "#pragma once\n#include \"b.h\"\nint a;\n"), ("/q/b.h", "#pragma once\n#include \"a.h\"\nint b;\n")]

theorem cyclic_a : targets (dir cyclic) [] "/q/a.h".toList "#pragma once\n#include \"b.h\"\nint a;\n".toList = ["/q/b.h".toList] := by decide +kernel

theorem cyclic_b : targets (dir cyclic) [] "/q/b.h".toList "#pragma once\n#include \"a.h\"\nint b;\n".toList = ["/q/a.h".toList] := by decide +kernel

/-- `#pragma once` does not protect headers that include each other: they are never loaded, however large the stack is. -/
theorem C65_cycle_witness (d : Nat) (st' : St) : load (dir cyclic) [] d "/q/a.h".toList ⟨[], []⟩ ≠ .ok st' := by
  refine C65_cycle ?_ d st'
  have h1 : IncludesNew (dir cyclic) [] [] "/q/a.h".toList "/q/b.h".toList :=
    ⟨⟨"#pragma once\n#include \"b.h\"\nint a;\n".toList, by decide +kernel, by rw [cyclic_a]; exact List.mem_singleton.mpr rfl⟩, by simp⟩
  have h2 : IncludesNew (dir cyclic) [] [] "/q/b.h".toList "/q/a.h".toList :=
    ⟨⟨"#pragma once\n#include \"a.h\"\nint b;\n".toList, by decide +kernel, by rw [cyclic_b]; exact List.mem_singleton.mpr rfl⟩, by simp⟩
  exact .head h1 (.single h2)

example : load (dir cyclic) [] 5 "/q/a.h".toList ⟨[], []⟩ = .ub := by decide +kernel

/-- A directive within a comment is carried out, and the character before it is lost, here the one that begins the comment. -/
theorem C65_comment_witness : loadToBuffer (dir [("/q/a.h", "/*#include <cuda.h> */\nint a;\n")]) [] 1 "/q/a.h".toList =
    .ok "\n/\n#include <cuda.h> */\nint a;\n".toList := by decide +kernel

/-- Quotes in a comment after the name of another header are taken for the name. -/
theorem C65_quote_witness : loadToBuffer (dir [("/q/a.h", "#include <cuda.h> // \"CUDA\"\n")]) [] 2 "/q/a.h".toList = .err .major := by decide +kernel

/-- A directive on a last line without a line break is computed with a null pointer. -/
theorem C65_last_line_witness : loadToBuffer (dir [("/q/a.h", "int a;\n#include \"b.h\""), ("/q/b.h", "int b;\n")]) [] 2 "/q/a.h".toList = .ub := by decide +kernel

/-- An empty header is an error. -/
theorem C65_empty_witness : loadToBuffer (dir [("/q/a.h", "#include \"b.h\"\nint a;\n"), ("/q/b.h", "")]) [] 2 "/q/a.h".toList = .err .major := by decide +kernel

/-- The source file itself is not known as included: a header that comes back to it by name repeats it, until the stack is full. Likewise a path
with a double slash is another name for the same file, which is then put in place twice. -/
theorem C65_two_names_witness : (match loadToBuffer (dir [("/q/a.h", "#include \"b.h\"\n#include \".//b.h\"\n"), ("/q/b.h", "#pragma once\nint b;\n"), ("/q//b.h", "#pragma once\nint b;\n")])
      [] 2 "/q/a.h".toList with
    | .ok b => nonblank b
    | _ => []) = ["int b;".toList, "int b;".toList] := by decide +kernel

/-- After a double slash `..` leads to another file. -/
theorem C65_double_slash_witness : normalize "/q/src//../a.h".toList = .ok "/q/src/a.h".toList := by decide +kernel

/-- The parent of a directory at the root cannot be named. -/
theorem C65_root_witness : normalize "/src/../a.h".toList = .err .major ∧ normalize "/../a.h".toList = .ub := by decide +kernel

end Jit
end Verif
