import Verif.Jit.Lines

/-!
# The loader follows the specification
-/

namespace Verif
namespace Jit

variable {fs : Str → Option Str} {roots : List Str} {ld : Str → St → Res St} {path : Str}

theorem scan_cons {x : Char} {t off : Str} {st : St} (h : x ≠ '#') : scan fs roots ld path (x :: t) off st = scan fs roots ld path t off st := by
  rw [scan, if_neg h]

theorem scan_nohash {w R off : Str} {st : St} (h : '#' ∉ w) : scan fs roots ld path (w ++ R) off st = scan fs roots ld path R off st := by
  induction w with
  | nil => rfl
  | cons c w ih =>
    rw [List.cons_append, scan_cons fun hc => h (by rw [hc]; exact List.mem_cons_self), ih fun hc => h (List.mem_cons_of_mem _ hc)]

theorem Plain.tail {c : Char} {w : Str} (h : Plain (c :: w)) : Plain w :=
  ⟨fun hc => h.1 (List.mem_cons_of_mem _ hc), fun A t e => h.2 (c :: A) t (by rw [e]; rfl)⟩

theorem scan_plain {w R off : Str} {st : St} (h : Plain w) (hR : Eol R) : scan fs roots ld path (w ++ R) off st = scan fs roots ld path R off st := by
  induction w with
  | nil => rfl
  | cons c w ih =>
    by_cases hc : c = '#'
    · subst hc
      obtain ⟨h1, h2⟩ := not_directive hR (h.2 [] w rfl)
      rw [List.cons_append, scan, if_pos rfl, atPragma, if_neg (by rw [h1]; simp)]
      show (atInclude fs roots ld path ('#' :: (w ++ R)) off st >>= _) = _
      rw [atInclude, if_neg (by rw [h2]; simp)]
      show scan fs roots ld path (w ++ R) off st = _
      exact ih h.tail
    · rw [List.cons_append, scan_cons hc, ih h.tail]

theorem scan_include {sp rest more off : Str} {st : St} (hsp : Spaces sp) (hr : Plain rest) :
    scan fs roots ld path ('#' :: (sp ++ ("include".toList ++ (rest ++ '\n' :: more)))) off st =
      (onInclude fs roots ld path ('#' :: (sp ++ ("include".toList ++ (rest ++ '\n' :: more)))) off st >>= fun r => scan fs roots ld path more r.2 r.1) := by
  obtain ⟨h1, h2⟩ := directive_include (x := rest ++ '\n' :: more) hsp
  rw [scan, if_pos rfl, atPragma, if_neg (by rw [h2]; simp)]
  show (atInclude fs roots ld path _ off st >>= _) = _
  rw [atInclude, if_pos h1]
  show (onInclude fs roots ld path _ off st >>= _) = _
  congr 1
  funext r
  show scan fs roots ld path (sp ++ ("include".toList ++ (rest ++ '\n' :: more))) r.2 r.1 = _
  rw [scan_nohash (hsp.not_mem (by decide)), scan_nohash (by decide), scan_plain hr (.inr ⟨more, rfl⟩), scan_cons (by decide)]

theorem scan_pragma {sp rest more off : Str} {st : St} (hsp : Spaces sp) (hr : Plain rest) :
    scan fs roots ld path ('#' :: (sp ++ ("pragma".toList ++ (rest ++ '\n' :: more)))) off st =
      (onPragma ('#' :: (sp ++ ("pragma".toList ++ (rest ++ '\n' :: more)))) off st.buf >>= fun r => scan fs roots ld path more r.2 ⟨r.1, st.paths⟩) := by
  obtain ⟨h1, h2⟩ := directive_pragma (x := rest ++ '\n' :: more) hsp
  rw [scan, if_pos rfl, atPragma, if_pos h1]
  cases onPragma ('#' :: (sp ++ ("pragma".toList ++ (rest ++ '\n' :: more)))) off st.buf with
  | err c => rfl
  | ub => rfl
  | ok r =>
    show (atInclude fs roots ld path ('#' :: (sp ++ ("pragma".toList ++ (rest ++ '\n' :: more)))) r.2 ⟨r.1, st.paths⟩ >>= _) = _
    rw [atInclude, if_neg (by rw [h2]; simp)]
    show scan fs roots ld path (sp ++ ("pragma".toList ++ (rest ++ '\n' :: more))) r.2 ⟨r.1, st.paths⟩ = scan fs roots ld path more r.2 ⟨r.1, st.paths⟩
    rw [scan_nohash (hsp.not_mem (by decide)), scan_nohash (by decide), scan_plain hr (.inr ⟨more, rfl⟩), scan_cons (by decide)]

/-! ## Finding characters on the line -/

theorem onLine_none {A more : Str} {c : Char} (h : c ∉ A) : onLine (strchr (A ++ '\n' :: more) c) ('\n' :: more) = none := by
  rw [strchr_append h]
  cases hq : strchr ('\n' :: more) c with
  | none => rfl
  | some q =>
    have := (strchr_len hq).1
    exact if_neg (by omega)

theorem onLine_some {A B more : Str} {c : Char} (h : c ∉ A) :
    onLine (strchr (A ++ c :: (B ++ '\n' :: more)) c) ('\n' :: more) = some (c :: (B ++ '\n' :: more)) := by
  rw [strchr_at h]
  exact if_pos (by simp)

theorem strrchr_none {A : Str} {c : Char} (h : c ∉ A) : strrchr A c = none := by
  induction A with
  | nil => rfl
  | cons x A ih =>
    rw [strrchr, ih fun hx => h (List.mem_cons_of_mem _ hx)]
    exact if_neg fun hx => h (by rw [hx]; exact List.mem_cons_self)

theorem strrchr_at {A B : Str} {c : Char} (h : c ∉ B) : strrchr (A ++ c :: B) c = some A.length := by
  induction A with
  | nil =>
    rw [List.nil_append, strrchr, strrchr_none h]
    exact if_pos rfl
  | cons x A ih =>
    rw [List.cons_append, strrchr, ih]
    rfl

theorem nl_at {sp rest more : Str} {kw : Str} (hk : '\n' ∉ kw) (hsp : Spaces sp) (hr : '\n' ∉ rest) :
    strchr ('#' :: (sp ++ (kw ++ (rest ++ '\n' :: more)))) '\n' = some ('\n' :: more) := by
  rw [show '#' :: (sp ++ (kw ++ (rest ++ '\n' :: more))) = ('#' :: (sp ++ (kw ++ rest))) ++ '\n' :: more by simp]
  refine strchr_at ?_
  have := hsp.not_mem (c := '\n') (by decide)
  simp [this, hr, hk]

/-! ## Pragmas -/

theorem onPragma_once {sp gap tail more P buf : Str} (hsp : Spaces sp) (hg : Spaces gap) (hr : '\n' ∉ gap ++ ("once".toList ++ tail)) :
    onPragma ('#' :: (sp ++ ("pragma".toList ++ (gap ++ ("once".toList ++ tail) ++ '\n' :: more))))
        (P ++ '#' :: (sp ++ ("pragma".toList ++ (gap ++ ("once".toList ++ tail) ++ '\n' :: more)))) buf =
      .ok (append buf (P ++ '#' :: (sp ++ ("pragma".toList ++ (gap ++ ("once".toList ++ tail) ++ '\n' :: more)))) P.length, more) := by
  have ho : onLine (strchr ('#' :: (sp ++ ("pragma".toList ++ (gap ++ ("once".toList ++ tail) ++ '\n' :: more)))) 'o') ('\n' :: more) =
      some ('o' :: ("nce".toList ++ tail ++ '\n' :: more)) := by
    rw [show '#' :: (sp ++ ("pragma".toList ++ (gap ++ ("once".toList ++ tail) ++ '\n' :: more))) =
      ('#' :: (sp ++ ("pragma".toList ++ gap))) ++ 'o' :: ("nce".toList ++ tail ++ '\n' :: more) by simp]
    refine onLine_some ?_
    have h1 := hsp.not_mem (c := 'o') (by decide)
    have h2 := hg.not_mem (c := 'o') (by decide)
    simp [h1, h2]
  unfold onPragma
  rw [nl_at (by decide) hsp hr]
  have hp : isOnce ('#' :: (sp ++ ("pragma".toList ++ (gap ++ ("once".toList ++ tail) ++ '\n' :: more)))) ('\n' :: more) = true := by
    rw [isOnce, ho]
    show "once".toList.isPrefixOf ('o' :: ("nce".toList ++ tail ++ '\n' :: more)) = true
    rw [List.isPrefixOf_iff_prefix]
    exact ⟨tail ++ '\n' :: more, by simp⟩
  simp only [hp, if_true]
  rw [if_neg (by simp; omega), List.length_append, Nat.add_zero, Nat.add_sub_cancel]
  rfl

theorem onPragma_other {sp rest more P buf : Str} (hsp : Spaces sp) (hr : '\n' ∉ rest) (hn : ∀ A B, rest = A ++ ("once".toList ++ B) → 'o' ∈ A) :
    onPragma ('#' :: (sp ++ ("pragma".toList ++ (rest ++ '\n' :: more))))
        (P ++ '#' :: (sp ++ ("pragma".toList ++ (rest ++ '\n' :: more)))) buf =
      .ok (buf ++ '\n' :: (P ++ (Line.pragma sp rest).render), more) := by
  have ho : isOnce ('#' :: (sp ++ ("pragma".toList ++ (rest ++ '\n' :: more)))) ('\n' :: more) = false := by
    rw [isOnce]
    have h1 := hsp.not_mem (c := 'o') (by decide)
    by_cases hm : 'o' ∈ rest
    · obtain ⟨A, B, hAB, hA⟩ : ∃ A B, rest = A ++ 'o' :: B ∧ 'o' ∉ A := by
        obtain ⟨A, B, h, hA⟩ := List.eq_append_cons_of_mem hm
        exact ⟨A, B, h, hA⟩
      have e : '#' :: (sp ++ ("pragma".toList ++ (rest ++ '\n' :: more))) = ('#' :: (sp ++ ("pragma".toList ++ A))) ++ 'o' :: (B ++ '\n' :: more) := by
        rw [hAB]; simp
      rw [e, onLine_some (by simp [h1, hA])]
      show "once".toList.isPrefixOf ('o' :: (B ++ '\n' :: more)) = false
      rw [Bool.eq_false_iff]
      intro hp
      rw [List.isPrefixOf_iff_prefix] at hp
      have hp : "once".toList <+: 'o' :: B := pre_of (R := '\n' :: more) (by decide) (.inr ⟨more, rfl⟩) hp
      obtain ⟨Z, hZ⟩ := hp
      exact hA (hn A Z (by rw [hAB, hZ]))
    · rw [show '#' :: (sp ++ ("pragma".toList ++ (rest ++ '\n' :: more))) = ('#' :: (sp ++ ("pragma".toList ++ rest))) ++ '\n' :: more by simp,
        onLine_none (by simp [h1, hm])]
  unfold onPragma
  rw [nl_at (by decide) hsp hr]
  simp only [ho, Bool.false_eq_true, if_false]
  rw [if_neg (by simp; omega)]
  have e : '#' :: (sp ++ ("pragma".toList ++ (rest ++ '\n' :: more))) = (Line.pragma sp rest).render ++ '\n' :: more := by simp [Line.render]
  rw [e]
  have hl : (P ++ ((Line.pragma sp rest).render ++ '\n' :: more)).length + (((Line.pragma sp rest).render ++ '\n' :: more).length - ('\n' :: more).length + 1) -
      ((Line.pragma sp rest).render ++ '\n' :: more).length = P.length + (Line.pragma sp rest).render.length + 1 := by
    rw [List.length_append, List.length_append]
    omega
  rw [hl, append_line]
  rfl

/-! ## Headers -/

theorem pre_of' {w t R : Str} {c : Char} (hw : c ∉ w) (h : w <+: t ++ c :: R) : w <+: t := by
  obtain ⟨Z, hZ⟩ := h
  induction w generalizing t with
  | nil => exact List.nil_prefix
  | cons x w ih =>
    cases t with
    | nil =>
      rw [List.cons_append, List.nil_append] at hZ
      cases hZ
      exact absurd List.mem_cons_self hw
    | cons d t =>
      rw [List.cons_append, List.cons_append] at hZ
      injection hZ with h1 h2
      subst h1
      exact List.cons_prefix_cons.mpr ⟨rfl, ih (fun hc => hw (List.mem_cons_of_mem _ hc)) h2⟩

theorem whole {w t R : Str} {c : Char} (hw : c ∉ w) (ht : c ∉ t) : w ++ [c] <+: t ++ c :: R ↔ t = w := by
  constructor
  · rintro ⟨Z, hZ⟩
    rw [List.append_assoc] at hZ
    obtain ⟨Y, hY⟩ := pre_of' (R := R) (t := t) hw ⟨c :: Z, by rw [← hZ]; rfl⟩
    rw [← hY, List.append_assoc] at hZ
    have h2 := List.append_cancel_left hZ
    cases Y with
    | nil => rw [← hY, List.append_nil]
    | cons y Y =>
      rw [List.cons_append, List.cons_append] at h2
      injection h2 with h3 _
      exact absurd (by rw [← hY, ← h3]; simp) ht
  · rintro rfl
    exact ⟨R, by simp⟩

theorem sys_prefix {w name R : Str} (hw : '>' ∉ w) : ('<' :: w).isPrefixOf ('<' :: (name ++ '>' :: R)) = true ↔ w <+: name := by
  rw [List.isPrefixOf_iff_prefix, List.cons_prefix_cons]
  exact ⟨fun hp => pre_of' hw hp.2, fun hp => ⟨rfl, hp.trans (List.prefix_append _ _)⟩⟩

theorem sys_whole {w name R : Str} (hw : '>' ∉ w) (h : '>' ∉ name) : ('<' :: (w ++ ['>'])).isPrefixOf ('<' :: (name ++ '>' :: R)) = true ↔ name = w := by
  rw [List.isPrefixOf_iff_prefix, List.cons_prefix_cons, whole hw h]
  exact ⟨fun hp => hp.2, fun hp => ⟨rfl, hp⟩⟩

theorem isCeedHeader_iff {name R : Str} (h : '>' ∉ name) : isCeedHeader ('<' :: (name ++ '>' :: R)) = true ↔ CeedHeader name := by
  have e1 := sys_prefix (w := "ceed/jit-source/".toList) (name := name) (R := R) (by decide)
  have e2 := sys_whole (w := "ceed/types.h".toList) (R := R) (by decide) h
  have e3 := sys_whole (w := "ceed/ceed-f32.h".toList) (R := R) (by decide) h
  have e4 := sys_whole (w := "ceed/ceed-f64.h".toList) (R := R) (by decide) h
  have s1 : "<ceed/jit-source/".toList = '<' :: "ceed/jit-source/".toList := by decide
  have s2 : "<ceed/types.h>".toList = '<' :: ("ceed/types.h".toList ++ ['>']) := by decide
  have s3 : "<ceed/ceed-f32.h>".toList = '<' :: ("ceed/ceed-f32.h".toList ++ ['>']) := by decide
  have s4 : "<ceed/ceed-f64.h>".toList = '<' :: ("ceed/ceed-f64.h".toList ++ ['>']) := by decide
  rw [isCeedHeader, s1, s2, s3, s4, Bool.or_eq_true, Bool.or_eq_true, Bool.or_eq_true, e1, e2, e3, e4, or_assoc, or_assoc, CeedHeader]

theorem isStdHeader_iff {name R : Str} (h : '>' ∉ name) : isStdHeader ('<' :: (name ++ '>' :: R)) = true ↔ StdHeader name := by
  have e1 := sys_prefix (w := "std".toList) (name := name) (R := R) (by decide)
  have e2 := sys_whole (w := "math.h".toList) (R := R) (by decide) h
  have e3 := sys_prefix (w := "ceed".toList) (name := name) (R := R) (by decide)
  have s1 : "<std".toList = '<' :: "std".toList := by decide
  have s2 : "<math.h>".toList = '<' :: ("math.h".toList ++ ['>']) := by decide
  have s3 : "<ceed".toList = '<' :: "ceed".toList := by decide
  rw [isStdHeader, s1, s2, s3, Bool.or_eq_true, Bool.or_eq_true, e1, e2, e3, or_assoc, StdHeader]

theorem absolutePath_first {name root : Str} {r1 r2 : List Str} (h1 : ∀ q ∈ r1, ∃ d, q = d ++ ['/'] ∧ ':' ∉ q ∧ fs (q ++ name) = none)
    (hn : ':' ∉ name) (hr : ':' ∉ root) (hf : (fs (root ++ '/' :: name)).isSome) : absolutePath fs name (r1 ++ (root ++ ['/']) :: r2) = .ok (root ++ '/' :: name) := by
  have hc : ∀ d : Str, pathConcatenate (d ++ ['/']) name = .ok (d ++ '/' :: name) := by
    intro d
    rw [pathConcatenate, strrchr_at (by simp)]
    show Res.ok ((d ++ ['/']).take (d.length + 1) ++ name) = _
    rw [List.take_of_length_le (by simp)]
    simp
  induction r1 with
  | nil =>
    rw [List.nil_append, absolutePath, hc]
    show (if checkFilePath fs (root ++ '/' :: name) = true then _ else _) = _
    rw [checkFilePath, strrchr_none (by simp [hn, hr])]
    show (if (fs (root ++ '/' :: name)).isSome = true then _ else _) = _
    rw [if_pos hf]
  | cons q r1 ih =>
    obtain ⟨d, rfl, hq, hfn⟩ := h1 q List.mem_cons_self
    rw [List.cons_append, absolutePath, hc]
    show (if checkFilePath fs (d ++ '/' :: name) = true then _ else _) = _
    have hq' : ':' ∉ d := by simpa using hq
    rw [checkFilePath, strrchr_none (by simp [hn, hq'])]
    show (if (fs (d ++ '/' :: name)).isSome = true then _ else _) = _
    rw [show d ++ ['/'] ++ name = d ++ '/' :: name by simp] at hfn
    rw [hfn, if_neg (by simp)]
    exact ih fun q hq => h1 q (List.mem_cons_of_mem _ hq)

/-- What an include directive does with the path of the header. -/
def putIn (ld : Str → St → Res St) (p : Str) (st : St) : Res St :=
  if p ∈ st.paths then .ok st
  else do
    let st ← ld p st
    .ok { st with paths := st.paths ++ [p] }

theorem onInclude_loc {sp gap name tail more P : Str} {p : Str} {st : St} (hok : (Line.loc sp gap name tail).Ok)
    (ht : Target fs roots path (.loc sp gap name tail) p) :
    onInclude fs roots ld path ('#' :: (sp ++ ("include".toList ++ (gap ++ '"' :: (name ++ '"' :: tail) ++ '\n' :: more))))
        (P ++ '#' :: (sp ++ ("include".toList ++ (gap ++ '"' :: (name ++ '"' :: tail) ++ '\n' :: more)))) st =
      (putIn ld p ⟨append st.buf (P ++ '#' :: (sp ++ ("include".toList ++ (gap ++ '"' :: (name ++ '"' :: tail) ++ '\n' :: more)))) P.length, st.paths⟩ >>=
        fun st => .ok (st, more)) := by
  obtain ⟨hsp, hg, hn, hpl⟩ := hok
  cases ht with
  | loc hp hc hd hcs hres =>
    rename_i ds cs r f
    have hq : onLine (strchr ('#' :: (sp ++ ("include".toList ++ (gap ++ '"' :: (name ++ '"' :: tail) ++ '\n' :: more)))) '"') ('\n' :: more) =
        some ('"' :: ((name ++ '"' :: tail) ++ '\n' :: more)) := by
      rw [show '#' :: (sp ++ ("include".toList ++ (gap ++ '"' :: (name ++ '"' :: tail) ++ '\n' :: more))) =
        ('#' :: (sp ++ ("include".toList ++ gap))) ++ '"' :: ((name ++ '"' :: tail) ++ '\n' :: more) by simp]
      refine onLine_some ?_
      have h1 := hsp.not_mem (c := '"') (by decide)
      have h2 := hg.not_mem (c := '"') (by decide)
      simp [h1, h2]
    have hlp : localPath path ('"' :: ((name ++ '"' :: tail) ++ '\n' :: more)) = .ok (joinPath (ds ++ cs)) := by
      have hf : '/' ∉ f := (hd f (by simp)).2
      have ep : path = joinPath ds ++ '/' :: f := by rw [hp]; simp [joinPath]
      rw [localPath, ep, strrchr_at hf, List.drop_succ_cons, List.drop_zero,
        show (name ++ '"' :: tail) ++ '\n' :: more = name ++ '"' :: (tail ++ '\n' :: more) by simp, strchr_at hn]
      show Res.ok (List.take ((joinPath ds).length + 1) (joinPath ds ++ '/' :: f) ++ List.take ((name ++ '"' :: (tail ++ '\n' :: more)).length - ('"' :: (tail ++ '\n' :: more)).length) (name ++ '"' :: (tail ++ '\n' :: more))) = _
      rw [List.length_append, Nat.add_sub_cancel, List.take_left]
      rw [show joinPath ds ++ '/' :: f = (joinPath ds ++ ['/']) ++ f by simp, List.take_left' (by simp)]
      rw [show joinPath ds ++ ['/'] ++ name = joinPath ds ++ '/' :: name by simp, hc]
      simp [joinPath]
    unfold onInclude
    rw [nl_at (by decide) hsp hpl.1]
    simp only [hq]
    rw [if_neg (by simp; omega), List.length_append, Nat.add_sub_cancel]
    rw [hlp]
    show ((includeFile ld (joinPath (ds ++ cs)) _) >>= _) = _
    have hall : ∀ c ∈ ds ++ cs, Name c := by
      intro c hc
      rcases List.mem_append.mp hc with h | h
      · exact hd c (List.mem_append_left _ h)
      · exact hcs c h
    rw [includeFile, normalize_resolve hall, hres]
    rfl

theorem sys_left {sp gap name tail more : Str} (hsp : Spaces sp) (hg : Spaces gap) (hq : '"' ∉ gap ++ '<' :: (name ++ '>' :: tail)) :
    onLine (strchr ('#' :: (sp ++ ("include".toList ++ (gap ++ '<' :: (name ++ '>' :: tail) ++ '\n' :: more)))) '"') ('\n' :: more) = none ∧
      onLine (strchr ('#' :: (sp ++ ("include".toList ++ (gap ++ '<' :: (name ++ '>' :: tail) ++ '\n' :: more)))) '<') ('\n' :: more) =
        some ('<' :: ((name ++ '>' :: tail) ++ '\n' :: more)) := by
  constructor
  · rw [show '#' :: (sp ++ ("include".toList ++ (gap ++ '<' :: (name ++ '>' :: tail) ++ '\n' :: more))) =
      ('#' :: (sp ++ ("include".toList ++ (gap ++ '<' :: (name ++ '>' :: tail))))) ++ '\n' :: more by simp]
    refine onLine_none ?_
    have h1 := hsp.not_mem (c := '"') (by decide)
    intro h
    rcases List.mem_cons.mp h with h | h
    · exact absurd h (by decide)
    · rcases List.mem_append.mp h with h | h
      · exact h1 h
      · rcases List.mem_append.mp h with h | h
        · exact absurd h (by decide)
        · exact hq h
  · rw [show '#' :: (sp ++ ("include".toList ++ (gap ++ '<' :: (name ++ '>' :: tail) ++ '\n' :: more))) =
      ('#' :: (sp ++ ("include".toList ++ gap))) ++ '<' :: ((name ++ '>' :: tail) ++ '\n' :: more) by simp]
    refine onLine_some ?_
    have h1 := hsp.not_mem (c := '<') (by decide)
    have h2 := hg.not_mem (c := '<') (by decide)
    simp [h1, h2]

theorem onInclude_sys {sp gap name tail more P : Str} {p : Str} {st : St} (hok : (Line.sys sp gap name tail).Ok)
    (ht : Target fs roots path (.sys sp gap name tail) p) :
    onInclude fs roots ld path ('#' :: (sp ++ ("include".toList ++ (gap ++ '<' :: (name ++ '>' :: tail) ++ '\n' :: more))))
        (P ++ '#' :: (sp ++ ("include".toList ++ (gap ++ '<' :: (name ++ '>' :: tail) ++ '\n' :: more)))) st =
      (putIn ld p ⟨append st.buf (P ++ '#' :: (sp ++ ("include".toList ++ (gap ++ '<' :: (name ++ '>' :: tail) ++ '\n' :: more)))) P.length, st.paths⟩ >>=
        fun st => .ok (st, more)) := by
  obtain ⟨hsp, hg, hn, hqt, hpl⟩ := hok
  cases ht with
  | sys hch hc hrs hcs hroots hr1 hcn hcr hf hres =>
    rename_i rs cs r r1 r2
    obtain ⟨hq, hl⟩ := sys_left (more := more) hsp hg hqt
    have hcp : ceedPath fs roots ('#' :: (sp ++ ("include".toList ++ (gap ++ '<' :: (name ++ '>' :: tail) ++ '\n' :: more))))
        ('<' :: ((name ++ '>' :: tail) ++ '\n' :: more)) = .ok (joinPath (rs ++ cs)) := by
      have h1 := hsp.not_mem (c := '>') (by decide)
      have h2 := hg.not_mem (c := '>') (by decide)
      have e : '#' :: (sp ++ ("include".toList ++ (gap ++ '<' :: (name ++ '>' :: tail) ++ '\n' :: more))) =
        ('#' :: (sp ++ ("include".toList ++ (gap ++ '<' :: name)))) ++ '>' :: (tail ++ '\n' :: more) := by simp
      rw [ceedPath, e, strchr_at (by simp [h1, h2, hn])]
      show (if ('<' :: ((name ++ '>' :: tail) ++ '\n' :: more)).length < ('>' :: (tail ++ '\n' :: more)).length + 1 then _ else _) = _
      rw [if_neg (by simp; omega), List.drop_succ_cons, List.drop_zero]
      rw [show ('<' :: ((name ++ '>' :: tail) ++ '\n' :: more)).length - ('>' :: (tail ++ '\n' :: more)).length - 1 = name.length by simp; omega]
      rw [show (name ++ '>' :: tail) ++ '\n' :: more = name ++ ('>' :: tail ++ '\n' :: more) by simp, List.take_left, hroots, absolutePath_first hr1 hcn hcr hf, hc]
      simp [joinPath]
    unfold onInclude
    rw [nl_at (by decide) hsp hpl.1]
    simp only [hq, hl]
    have hce : isCeedHeader ('<' :: ((name ++ '>' :: tail) ++ '\n' :: more)) = true := by
      rw [show (name ++ '>' :: tail) ++ '\n' :: more = name ++ '>' :: (tail ++ '\n' :: more) by simp]
      exact (isCeedHeader_iff hn).mpr hch
    rw [if_neg (by simp; omega), List.length_append, Nat.add_sub_cancel, if_pos hce]
    rw [hcp]
    show ((includeFile ld (joinPath (rs ++ cs)) _) >>= _) = _
    have hall : ∀ c ∈ rs ++ cs, Name c := by
      intro c hc
      rcases List.mem_append.mp hc with h | h
      · exact hrs c h
      · exact hcs c h
    rw [includeFile, normalize_resolve hall, hres]
    rfl

theorem onInclude_std {sp gap name tail more P : Str} {st : St} (hok : (Line.sys sp gap name tail).Ok) (hc : ¬ CeedHeader name) :
    onInclude fs roots ld path ('#' :: (sp ++ ("include".toList ++ (gap ++ '<' :: (name ++ '>' :: tail) ++ '\n' :: more))))
        (P ++ '#' :: (sp ++ ("include".toList ++ (gap ++ '<' :: (name ++ '>' :: tail) ++ '\n' :: more)))) st =
      .ok (⟨if isStdHeader ('<' :: (name ++ '>' :: (tail ++ '\n' :: more))) then
          append st.buf (P ++ '#' :: (sp ++ ("include".toList ++ (gap ++ '<' :: (name ++ '>' :: tail) ++ '\n' :: more)))) P.length
        else append st.buf (P ++ '#' :: (sp ++ ("include".toList ++ (gap ++ '<' :: (name ++ '>' :: tail) ++ '\n' :: more)))) P.length ++
          '\n' :: (Line.sys sp gap name tail).render, st.paths⟩, more) := by
  obtain ⟨hsp, hg, hn, hqt, hpl⟩ := hok
  obtain ⟨hq, hl⟩ := sys_left (more := more) hsp hg hqt
  unfold onInclude
  rw [nl_at (by decide) hsp hpl.1]
  simp only [hq, hl]
  have e1 : (name ++ '>' :: tail) ++ '\n' :: more = name ++ '>' :: (tail ++ '\n' :: more) := by simp
  have hce : ¬ isCeedHeader ('<' :: ((name ++ '>' :: tail) ++ '\n' :: more)) = true := by
    rw [e1]
    exact fun h => hc ((isCeedHeader_iff hn).mp h)
  rw [if_neg (by simp; omega), if_neg hce, e1]
  have hlen : (P ++ '#' :: (sp ++ ("include".toList ++ (gap ++ '<' :: (name ++ '>' :: tail) ++ '\n' :: more)))).length -
      ('#' :: (sp ++ ("include".toList ++ (gap ++ '<' :: (name ++ '>' :: tail) ++ '\n' :: more)))).length = P.length := by
    rw [List.length_append, Nat.add_sub_cancel]
  rw [hlen]
  by_cases hs : isStdHeader ('<' :: (name ++ '>' :: (tail ++ '\n' :: more))) = true
  · rw [if_pos hs, if_pos hs]; rfl
  · rw [if_neg hs, if_neg hs]
    show Res.ok (St.mk (append _ _ _) _, _) = _
    congr 3
    have e2 : '#' :: (sp ++ ("include".toList ++ (gap ++ '<' :: (name ++ '>' :: tail) ++ '\n' :: more))) = (Line.sys sp gap name tail).render ++ '\n' :: more := by
      simp [Line.render]
    rw [e2]
    have := append_line (buf := append st.buf (P ++ ((Line.sys sp gap name tail).render ++ '\n' :: more)) P.length) (P := []) (l := (Line.sys sp gap name tail).render) (more := more)
    rw [List.nil_append, List.nil_append] at this
    rw [← this]
    congr 1
    simp

/-! ## Files -/

theorem body_cons (l : Line) (ls : List Line) (last : Str) : body (l :: ls) ++ last = l.render ++ '\n' :: (body ls ++ last) := by simp [body]

theorem scan_incl {l : Line} {p more P : Str} {st : St} (hok : l.Ok) (ht : Target fs roots path l p) :
    scan fs roots ld path (l.render ++ '\n' :: more) (P ++ (l.render ++ '\n' :: more)) st =
      (putIn ld p ⟨append st.buf (P ++ (l.render ++ '\n' :: more)) P.length, st.paths⟩ >>= fun st => scan fs roots ld path more more st) := by
  cases ht with
  | loc hp hc hd hcs hres =>
    rename_i sp gap name tail ds cs r f
    have e : (Line.loc sp gap name tail).render ++ '\n' :: more =
      '#' :: (sp ++ ("include".toList ++ (gap ++ '"' :: (name ++ '"' :: tail) ++ '\n' :: more))) := by simp [Line.render]
    rw [e, scan_include hok.1 hok.2.2.2, onInclude_loc hok (.loc hp hc hd hcs hres)]
    cases putIn ld (joinPath r) _ <;> rfl
  | sys hch hc hrs hcs hroots hr1 hcn hcr hf hres =>
    rename_i sp gap name tail rs cs r r1 r2
    have e : (Line.sys sp gap name tail).render ++ '\n' :: more =
      '#' :: (sp ++ ("include".toList ++ (gap ++ '<' :: (name ++ '>' :: tail) ++ '\n' :: more))) := by simp [Line.render]
    rw [e, scan_include hok.1 hok.2.2.2.2, onInclude_sys hok (.sys hch hc hrs hcs hroots hr1 hcn hcr hf hres)]
    cases putIn ld (joinPath r) _ <;> rfl

/-- What is to be shown for lines. -/
def LinesGoal (fs : Str → Option Str) (roots : List Str) (path : Str) (ls : List Line) (inc out inc' : List Str) : Prop :=
  ∃ d0, ∀ d, d0 ≤ d → ∀ last buf P, Plain last → Pend P →
    ∃ buf' P', scan fs roots (load fs roots d) path (body ls ++ last) (P ++ (body ls ++ last)) ⟨buf, inc⟩ = .ok (⟨buf', inc'⟩, P' ++ last) ∧ Pend P' ∧
      nonblank buf' ++ nonblank P' = nonblank buf ++ nonblank P ++ out

/-- What is to be shown for files. -/
def FileGoal (fs : Str → Option Str) (roots : List Str) (path : Str) (inc out inc' : List Str) : Prop :=
  ∃ d0, ∀ d, d0 ≤ d → ∀ buf, ∃ buf', load fs roots d path ⟨buf, inc⟩ = .ok ⟨buf', inc'⟩ ∧ nonblank buf' = nonblank buf ++ out

theorem flat_load {inc out inc' : List Str} (h : Flat fs roots path inc out inc') : FileGoal fs roots path inc out inc' := by
  refine Flat.rec (motive_1 := fun path inc out inc' _ => FileGoal fs roots path inc out inc')
    (motive_2 := fun path ls inc out inc' _ => LinesGoal fs roots path ls inc out inc') ?_ ?_ ?_ ?_ ?_ ?_ ?_ ?_ ?_ h
  · -- a file
    intro path ls last inc out inc' hfs hne hlast _ ⟨d0, ih⟩
    refine ⟨d0 + 1, fun d hd buf => ?_⟩
    obtain ⟨d, rfl⟩ : ∃ d', d = d' + 1 := ⟨d - 1, by omega⟩
    obtain ⟨buf', P', hs, hP', hb⟩ := ih d (by omega) last buf [] hlast (.inl rfl)
    rw [List.nil_append] at hs
    refine ⟨buf' ++ '\n' :: (P' ++ last), ?_, ?_⟩
    · rw [load, hfs]
      simp only [if_neg hne]
      rw [hs]
      rfl
    · rw [nonblank_append, hP'.nonblank, nonblank_line hlast.1, ← List.append_assoc, hb, nonblank_nil, List.append_nil, List.append_assoc]
  · -- no lines
    intro path inc
    refine ⟨0, fun d _ last buf P hl hP => ⟨buf, P, ?_, hP, by simp⟩⟩
    have e : body [] ++ last = last ++ [] := by simp [body]
    rw [e, scan_plain hl (.inl rfl), List.append_nil]
    rfl
  · intro path s ls inc out inc' hok _ ⟨d0, ih⟩
    refine ⟨d0, fun d hd last buf P hl hP => ?_⟩
    obtain ⟨buf', P', hs, hP', hb⟩ := ih d hd last buf (P ++ (s ++ ['\n'])) hl Pend.add
    refine ⟨buf', P', ?_, hP', ?_⟩
    · rw [body_cons, Line.render, scan_plain hok (.inr ⟨_, rfl⟩), scan_cons (by decide), ← hs]
      congr 1
      simp
    · rw [hb, hP.nonblank, show s ++ ['\n'] = s ++ '\n' :: [] by simp, nonblank_append, nonblank_nil, nonblank_line hok.1]
      simp
  · intro path sp gap tail ls inc out inc' hok _ ⟨d0, ih⟩
    refine ⟨d0, fun d hd last buf P hl hP => ?_⟩
    have e : (Line.once sp gap tail).render ++ '\n' :: (body ls ++ last) =
      '#' :: (sp ++ ("pragma".toList ++ (gap ++ ("once".toList ++ tail) ++ '\n' :: (body ls ++ last)))) := by simp [Line.render]
    obtain ⟨buf', P', hs, hP', hb⟩ := ih d hd last (append buf (P ++ ((Line.once sp gap tail).render ++ '\n' :: (body ls ++ last))) P.length) [] hl (.inl rfl)
    refine ⟨buf', P', ?_, hP', ?_⟩
    · rw [body_cons, e, scan_pragma hok.1 hok.2.2, onPragma_once hok.1 hok.2.1 hok.2.2.1, ← hs, e]
      rfl
    · rw [hb, nonblank_append_buf hP, nonblank_nil, List.append_nil]
  · intro path sp rest ls inc out inc' hok _ ⟨d0, ih⟩
    refine ⟨d0, fun d hd last buf P hl hP => ?_⟩
    have e : (Line.pragma sp rest).render ++ '\n' :: (body ls ++ last) =
      '#' :: (sp ++ ("pragma".toList ++ (rest ++ '\n' :: (body ls ++ last)))) := by simp [Line.render]
    obtain ⟨buf', P', hs, hP', hb⟩ := ih d hd last (buf ++ '\n' :: (P ++ (Line.pragma sp rest).render)) [] hl (.inl rfl)
    refine ⟨buf', P', ?_, hP', ?_⟩
    · rw [body_cons, e, scan_pragma hok.1 hok.2.1, onPragma_other hok.1 hok.2.1.1 hok.2.2, ← hs]
      rfl
    · have hnl : '\n' ∉ (Line.pragma sp rest).render := by
        have h1 := hok.1.not_mem (c := '\n') (by decide)
        have h2 := hok.2.1.1
        simp [Line.render, h1, h2]
      rw [hb, nonblank_append, hP.nonblank, nonblank_nil, nonblank_line hnl, keep, if_neg (by simp [Line.render])]
      simp
  · intro path sp gap name tail ls inc out inc' hok hc hst _ ⟨d0, ih⟩
    refine ⟨d0, fun d hd last buf P hl hP => ?_⟩
    have e : (Line.sys sp gap name tail).render ++ '\n' :: (body ls ++ last) =
      '#' :: (sp ++ ("include".toList ++ (gap ++ '<' :: (name ++ '>' :: tail) ++ '\n' :: (body ls ++ last)))) := by simp [Line.render]
    obtain ⟨buf', P', hs, hP', hb⟩ := ih d hd last (append buf (P ++ ((Line.sys sp gap name tail).render ++ '\n' :: (body ls ++ last))) P.length) [] hl (.inl rfl)
    refine ⟨buf', P', ?_, hP', ?_⟩
    · rw [body_cons, e, scan_include hok.1 hok.2.2.2.2, onInclude_std hok hc, if_pos ((isStdHeader_iff hok.2.2.1).mpr hst), ← hs, e]
      rfl
    · rw [hb, nonblank_append_buf hP, nonblank_nil, List.append_nil]
  · intro path sp gap name tail ls inc out inc' hok hc hst _ ⟨d0, ih⟩
    refine ⟨d0, fun d hd last buf P hl hP => ?_⟩
    have e : (Line.sys sp gap name tail).render ++ '\n' :: (body ls ++ last) =
      '#' :: (sp ++ ("include".toList ++ (gap ++ '<' :: (name ++ '>' :: tail) ++ '\n' :: (body ls ++ last)))) := by simp [Line.render]
    obtain ⟨buf', P', hs, hP', hb⟩ := ih d hd last
      (append buf (P ++ ((Line.sys sp gap name tail).render ++ '\n' :: (body ls ++ last))) P.length ++ '\n' :: (Line.sys sp gap name tail).render) [] hl (.inl rfl)
    refine ⟨buf', P', ?_, hP', ?_⟩
    · rw [body_cons, e, scan_include hok.1 hok.2.2.2.2, onInclude_std hok hc, if_neg fun h => hst ((isStdHeader_iff hok.2.2.1).mp h), ← hs, e]
      rfl
    · have hnl : '\n' ∉ (Line.sys sp gap name tail).render := by
        have h1 := hok.1.not_mem (c := '\n') (by decide)
        have h2 := hok.2.2.2.2.1
        intro h
        rcases List.mem_cons.mp h with h | h
        · exact absurd h (by decide)
        · rcases List.mem_append.mp h with h | h
          · exact h1 h
          · rcases List.mem_append.mp h with h | h
            · exact absurd h (by decide)
            · exact h2 h
      rw [hb, nonblank_append, nonblank_append_buf hP, nonblank_nil, nonblank_line hnl, keep, if_neg (by simp [Line.render])]
      simp
  · intro path p l ls inc out inc' hok ht hp _ ⟨d0, ih⟩
    refine ⟨d0, fun d hd last buf P hl hP => ?_⟩
    obtain ⟨buf', P', hs, hP', hb⟩ := ih d hd last (append buf (P ++ (l.render ++ '\n' :: (body ls ++ last))) P.length) [] hl (.inl rfl)
    refine ⟨buf', P', ?_, hP', ?_⟩
    · rw [body_cons, scan_incl hok ht, putIn, if_pos hp, ← hs]
      rfl
    · rw [hb, nonblank_append_buf hP, nonblank_nil, List.append_nil]
  · intro path p l ls inc out1 inc1 out2 inc2 hok ht hp _ _ ⟨d1, ih1⟩ ⟨d0, ih⟩
    refine ⟨max d0 d1, fun d hd last buf P hl hP => ?_⟩
    obtain ⟨buf1, hl1, hb1⟩ := ih1 d (le_trans (le_max_right _ _) hd) (append buf (P ++ (l.render ++ '\n' :: (body ls ++ last))) P.length)
    obtain ⟨buf', P', hs, hP', hb⟩ := ih d (le_trans (le_max_left _ _) hd) last buf1 [] hl (.inl rfl)
    refine ⟨buf', P', ?_, hP', ?_⟩
    · rw [body_cons, scan_incl hok ht, putIn, if_neg hp, hl1, ← hs]
      rfl
    · rw [hb, hb1, nonblank_append_buf hP, nonblank_nil, List.append_nil, List.append_assoc]

end Jit
end Verif
