import Verif.Lemma.Format
import Verif.Lemma.Dec

/-
C41, C42, C69: conversion specifiers in log file names and reset commands.
-/
namespace Conman
open Spec

/-! ### C41 -/

/- Full statement of C41: as below, without the condition on the end of the format.  It does not hold (C41_lone_percent): after a `%` at the end of
the format the function goes on reading behind it. -/

/-- C41, the part that holds: unless the format ends in a single `%`, everything read and written lies within the arrays; the result is -1 exactly if
the expansion and its terminator do not fit; otherwise it is the length of the expansion, which the buffer holds, terminated.  In case of failure the
buffer holds a terminated initial part of the expansion. -/
theorem C41_expansion_partial {o : Option FObj} {pid : Int} {tm : UInt8 → List UInt8} (htm : ∀ c ∈ timeLetters, tm c ≠ []) {buf fmt : List UInt8}
    (hb : buf ≠ []) (hl : loneEnd fmt = false) :
    ∃ buf' rc, formatObj buf o pid tm fmt = some (buf', rc) ∧ buf'.length = buf.length ∧
      ((expand o pid tm fmt).length < buf.length → rc = (expand o pid tm fmt).length ∧ ∃ rest, buf' = expand o pid tm fmt ++ 0 :: rest) ∧
      (buf.length ≤ (expand o pid tm fmt).length → rc = -1 ∧ ∃ k rest, k < buf.length ∧ buf' = (expand o pid tm fmt).take k ++ 0 :: rest) := by
  have hpos : 0 < buf.length := List.length_pos_iff.2 hb
  have hf : Fmt buf.length [] (buf, 0, (buf.length : Int)) := ⟨rfl, by simp, rfl, by simpa using hpos, fun _ => by simp⟩
  obtain ⟨⟨b, d, n⟩, k, e, h1, g1, g2, g3, g4, g5⟩ := fmtLoop_puts (o := o) (pid := pid) htm fmt hf (by dsimp only; omega) hl
  simp only [List.nil_append, List.length_nil, Nat.zero_add] at h1 g1 g2 g3 g4 g5
  unfold formatObj
  rw [e, Option.bind_some]
  dsimp only
  rw [poke_eq (by omega), Option.map_some]
  have hov : ∃ rest, over b d [0] = (expand o pid tm fmt).take k ++ 0 :: rest := by
    refine ⟨b.drop (d + 1), ?_⟩
    unfold over
    rw [g3, g2]; simp
  refine ⟨_, _, rfl, by rw [over_length (by simp; omega), g1], fun hlt => ?_, fun hge => ?_⟩
  · rw [if_pos hlt] at h1
    rw [if_neg (by omega), g3, h1.1, List.take_of_length_le (Nat.le_refl _)]
    rw [h1.1, List.take_of_length_le (Nat.le_refl _)] at hov
    rw [g3, h1.1, List.take_of_length_le (Nat.le_refl _)] at hov
    exact ⟨rfl, hov⟩
  · rw [if_neg (by omega)] at h1
    rw [if_pos h1]
    obtain ⟨rest, hov⟩ := hov
    refine ⟨rfl, ((expand o pid tm fmt).take k).length, rest, g4, ?_⟩
    rw [hov]
    congr 1
    rw [List.length_take, List.take_eq_take_iff]
    omega

theorem expand_lone {o : Option FObj} {pid : Int} {tm : UInt8 → List UInt8} : ∀ s : List UInt8, loneEnd s = true → 0 < (expand o pid tm s).length
  | [], h => by simp [loneEnd] at h
  | [c], _ => by simp [expand]
  | c :: c2 :: s, h => by
    rw [expand]
    split
    · rename_i h25
      rw [loneEnd] at h; rw [if_pos h25] at h
      rw [List.length_append]
      have := expand_lone (o := o) (pid := pid) (tm := tm) s h
      omega
    · simp

theorem fmtLoop_lone {size : Nat} {o : Option FObj} {pid : Int} {tm : UInt8 → List UInt8} (htm : ∀ c ∈ timeLetters, tm c ≠ []) :
    ∀ (fmt : List UInt8) {out : List UInt8} {st : FmtSt}, Fmt size out st → st.2.2 > 0 → loneEnd fmt = true → out.length + (expand o pid tm fmt).length ≤ size →
    fmtLoop o pid tm st fmt = none
  | [], out, st, hf, hn, hl, _ => by simp [loneEnd] at hl
  | [c], out, st, hf, hn, hl, _ => by
    have hc : c = 0x25 := by simpa [loneEnd] using hl
    rw [fmtLoop]; rw [if_pos hn, if_neg (not_not_intro hc)]
  | c :: c2 :: s, out, st, hf, hn, hl, hlen => by
    by_cases hc : c = 0x25
    · have hx : expand o pid tm (c :: c2 :: s) = specifier o pid tm c2 ++ expand o pid tm s := by rw [expand]; rw [if_pos hc]
      have hl' : loneEnd s = true := by rw [loneEnd] at hl; rw [if_pos hc] at hl; exact hl
      have hse := expand_lone (o := o) (pid := pid) (tm := tm) s hl'
      obtain ⟨st1, e, h⟩ := fmtSpec_puts (o := o) (pid := pid) htm hf hn c2
      rw [hx, List.length_append] at hlen
      rw [fmtLoop]
      rw [if_pos hn, if_neg (not_not_intro hc), e, Option.bind_some]
      rw [if_pos (by omega)] at h
      exact fmtLoop_lone htm s h.1 h.2 hl' (by rw [List.length_append]; omega)
    · have hx : expand o pid tm (c :: c2 :: s) = c :: expand o pid tm (c2 :: s) := by rw [expand]; rw [if_neg hc]
      have hl' : loneEnd (c2 :: s) = true := by rw [loneEnd] at hl; rw [if_neg hc] at hl; exact hl
      have hse := expand_lone (o := o) (pid := pid) (tm := tm) _ hl'
      obtain ⟨st1, e, h⟩ := putChar_puts hf hn c
      rw [hx, List.length_cons] at hlen
      rw [fmtLoop]
      rw [if_pos hn, if_pos hc, e, Option.bind_some]
      rw [if_pos (by simp; omega)] at h
      exact fmtLoop_lone htm (c2 :: s) h.1 h.2 hl' (by rw [List.length_append]; simp; omega)

/-- C41 fails: a format that ends in a single `%` makes the function read behind its terminator, for every object and every buffer large enough to
get there. -/
theorem C41_lone_percent {o : Option FObj} {pid : Int} {tm : UInt8 → List UInt8} (htm : ∀ c ∈ timeLetters, tm c ≠ []) {buf fmt : List UInt8}
    (hl : loneEnd fmt = true) (hb : (expand o pid tm fmt).length ≤ buf.length) (hne : buf ≠ []) : formatObj buf o pid tm fmt = none := by
  have hpos : 0 < buf.length := List.length_pos_iff.2 hne
  have hf : Fmt buf.length [] (buf, 0, (buf.length : Int)) := ⟨rfl, by simp, rfl, by simpa using hpos, fun _ => by simp⟩
  unfold formatObj
  rw [fmtLoop_lone htm fmt hf (by dsimp only; omega) hl (by simpa using hb)]; rfl

/-- Some text for each time letter, for the examples. -/
def tmDemo (c : UInt8) : List UInt8 := if c = 0x59 then bs "2024" else bs "07"

theorem tmDemo_ne : ∀ c ∈ timeLetters, tmDemo c ≠ [] := by decide

def conDemo : FObj := { console := true, name := bs "rack 1/n3", dev := .path (bs "/dev/pts/ttyS4") }
def telDemo : FObj := { console := true, name := bs "sw", dev := .telnet (bs "10.0.0.1") 2001 }

example : formatObj (List.replicate 64 7) (some conDemo) 123 tmDemo (bs "/log/%N.%D-%Y%d.%P%%%Q") =
    some (bs "/log/rack_1_n3.ttyS4-202407.123%%Q" ++ 0 :: List.replicate 29 7, 34) := by decide +kernel
example : (formatObj (List.replicate 64 7) (some telDemo) 123 tmDemo (bs "/log/%D")).map (·.2) = some 18 := by decide +kernel
example : (formatObj (List.replicate 64 7) none 123 tmDemo (bs "/log/%N")).map (·.1.take 8) = some (bs "/log/%N" ++ [0]) := by decide +kernel
/-- One byte short. -/
example : (formatObj (List.replicate 14 7) (some conDemo) 123 tmDemo (bs "/log/%N")).map (fun r => (r.1.take 6, r.2)) = some (bs "/log/" ++ [0], -1) := by decide +kernel
example : (formatObj (List.replicate 15 7) (some conDemo) 123 tmDemo (bs "/log/%N")).map (fun r => (r.1, r.2)) = some (bs "/log/rack_1_n3" ++ [0], 14) := by decide +kernel
example : loneEnd (bs "/log/%N.%D-%Y%d.%P%%%Q") = false ∧ loneEnd (bs "/log/%N%") = true ∧ loneEnd (bs "/log/%N%%") = false := by decide
example : formatObj (List.replicate 64 7) (some conDemo) 123 tmDemo (bs "/log/%N%") = none := C41_lone_percent tmDemo_ne (by decide) (by decide) (by decide)

/-! ### C42 -/

theorem fileChar_ok (b : UInt8) : fileOk (fileChar b) = true := by
  unfold fileChar
  split
  · assumption
  · decide

theorem dec_ok (n : Nat) : ∀ b ∈ dec n, fileOk b = true := by
  intro b hb
  have hd : isDigit b = true := digit_isDigit ((dec_spec n).2.1 b hb)
  unfold isDigit at hd
  simp only [Bool.and_eq_true, decide_eq_true_eq] at hd
  unfold fileOk
  simp only [Bool.and_eq_true, decide_eq_true_eq]
  have h1 := UInt8.le_iff_toNat_le.1 hd.1
  have h2 := UInt8.le_iff_toNat_le.1 hd.2
  refine ⟨⟨UInt8.le_iff_toNat_le.2 ?_, UInt8.le_iff_toNat_le.2 ?_⟩, ?_⟩
  · exact Nat.le_trans (by decide) h1
  · exact Nat.le_trans h2 (by decide)
  · intro e; rw [e] at h1; exact absurd h1 (by decide)

theorem decInt_ok (n : Int) : ∀ b ∈ decInt n, fileOk b = true := by
  unfold decInt
  split
  · intro b hb
    rcases List.mem_cons.1 hb with e | e
    · rw [e]; decide
    · exact dec_ok _ b e
  · exact dec_ok _

theorem filter_ok {l : List UInt8} (h : ∀ b ∈ l, fileOk b = true) : l.filter (fun b => !fileOk b) = [] := by
  rw [List.filter_eq_nil_iff]
  intro b hb; simp [h b hb]

theorem filter_map_ok (l : List UInt8) : (l.map fileChar).filter (fun b => !fileOk b) = [] :=
  filter_ok (fun b hb => by obtain ⟨a, _, e⟩ := List.mem_map.1 hb; rw [← e]; exact fileChar_ok a)

/-- A specifier adds nothing but file name characters: what else appears was written in the format. -/
theorem specifier_ok {o : Option FObj} {pid : Int} {tm : UInt8 → List UInt8} (htm : ∀ c ∈ timeLetters, ∀ b ∈ tm c, fileOk b = true) (c : UInt8) :
    (specifier o pid tm c).filter (fun b => !fileOk b) = [c].filter (fun b => !fileOk b) := by
  have h25 : ∀ c, ([0x25, c] : List UInt8).filter (fun b => !fileOk b) = [c].filter (fun b => !fileOk b) := by
    intro c; rw [List.filter_cons_of_neg (by decide)]
  have hgood : ∀ c, fileOk c = true → ∀ l : List UInt8, l.filter (fun b => !fileOk b) = [] → l.filter (fun b => !fileOk b) = [c].filter (fun b => !fileOk b) := by
    intro c hc l hl; rw [hl, filter_ok (by intro b hb; rw [List.mem_singleton.1 hb]; exact hc)]
  unfold specifier
  split
  · rename_i hc
    cases o with
    | none => exact h25 c
    | some o =>
      refine hgood c (by rw [hc]; decide) _ ?_
      dsimp only
      split
      · exact filter_map_ok _
      · rfl
  · split
    · rename_i hc
      cases o with
      | none => exact h25 c
      | some o =>
        refine hgood c (by rw [hc]; decide) _ ?_
        dsimp only
        cases o.dev with
        | path dev => exact filter_map_ok _
        | telnet host port => exact filter_map_ok _
        | other => rfl
    · split
      · rename_i hc
        exact hgood c (by rw [hc]; decide) _ (filter_ok (decInt_ok pid))
      · split
        · rename_i hc
          refine hgood c ?_ _ (filter_ok (htm c hc))
          have : ∀ c ∈ timeLetters, fileOk c = true := by decide
          exact this c hc
        · split
          · rename_i hc; rw [hc]
          · exact h25 c

theorem expand_ok {o : Option FObj} {pid : Int} {tm : UInt8 → List UInt8} (htm : ∀ c ∈ timeLetters, ∀ b ∈ tm c, fileOk b = true) :
    ∀ fmt, (expand o pid tm fmt).filter (fun b => !fileOk b) = fmt.filter (fun b => !fileOk b)
  | [] => rfl
  | [c] => rfl
  | c :: c2 :: s => by
    rw [expand]
    split
    · rename_i hc
      rw [List.filter_append, specifier_ok htm, expand_ok htm s, hc, ← List.filter_append, List.filter_cons_of_neg (a := 0x25) (by decide)]; rfl
    · rw [List.filter_cons, List.filter_cons (xs := c2 :: s), expand_ok htm (c2 :: s)]

/-- C42. The slashes and the characters that are not graphic in an expanded name are exactly those of the format, in the same order: no console name,
device, host name, process id or time of day adds any. -/
theorem C42_only_from_format {o : Option FObj} {pid : Int} {tm : UInt8 → List UInt8} (htm : ∀ c ∈ timeLetters, tm c ≠ [] ∧ ∀ b ∈ tm c, fileOk b = true)
    {buf fmt buf' : List UInt8} {rc : Int} (hb : buf ≠ []) (hl : loneEnd fmt = false) (h : formatObj buf o pid tm fmt = some (buf', rc)) (hrc : 0 ≤ rc) :
    ∃ out rest, buf' = out ++ 0 :: rest ∧ rc = out.length ∧ out.filter (fun b => !fileOk b) = fmt.filter (fun b => !fileOk b) ∧
      out.count 0x2F = fmt.count 0x2F := by
  obtain ⟨b, r, e, _, h1, h2⟩ := C41_expansion_partial (o := o) (pid := pid) (tm := tm) (fun c hc => (htm c hc).1) hb hl
  rw [h] at e
  cases e
  rcases Nat.lt_or_ge (expand o pid tm fmt).length buf.length with hlt | hge
  · obtain ⟨h3, rest, h4⟩ := h1 hlt
    have hx := expand_ok (o := o) (pid := pid) (tm := tm) (fun c hc => (htm c hc).2) fmt
    refine ⟨_, rest, h4, h3, hx, ?_⟩
    have hcount : ∀ l : List UInt8, l.count 0x2F = (l.filter (fun b => !fileOk b)).count 0x2F := by
      intro l
      rw [List.count_filter (by decide)]
    rw [hcount, hx, ← hcount]
  · have := (h2 hge).1; omega

/-- C42. The name of a console stands in the result with every character that is not graphic, and every slash, replaced by an underscore. -/
theorem C42_name {con : FObj} {pid : Int} {tm : UInt8 → List UInt8} (hc : con.console = true) :
    expand (some con) pid tm (bs "%N") = con.name.map (fun b => if 0x21 ≤ b ∧ b ≤ 0x7E ∧ b ≠ 0x2F then b else 0x5F) := by
  have : bs "%N" = [0x25, 0x4E] := by decide
  rw [this, expand, if_pos rfl, expand, List.append_nil]
  unfold specifier
  rw [if_pos rfl]
  dsimp only
  rw [if_pos hc]
  congr 1
  funext b
  unfold fileChar fileOk
  simp only [Bool.and_eq_true, decide_eq_true_eq, and_assoc]

/-- C42. Of a device only the part after the last slash is used. -/
theorem C42_device {con : FObj} {pid : Int} {tm : UInt8 → List UInt8} {dir file : List UInt8} (hf : (0x2F : UInt8) ∉ file)
    (hd : con.dev = .path (dir ++ 0x2F :: file) ∨ con.dev = .path file) : expand (some con) pid tm (bs "%D") = file.map fileChar := by
  have : bs "%D" = [0x25, 0x44] := by decide
  rw [this, expand, if_pos rfl, expand, List.append_nil]
  unfold specifier
  rw [if_neg (by decide), if_pos rfl]
  dsimp only
  rcases hd with hd | hd
  · rw [hd]; dsimp only; rw [lastComponent_at dir hf]
  · rw [hd]; dsimp only; rw [lastComponent_none hf]

example : expand (some conDemo) 1 tmDemo (bs "%D") = (bs "ttyS4").map fileChar := C42_device (dir := bs "/dev/pts") (by decide) (.inl rfl)
example : expand (some conDemo) 1 tmDemo (bs "%N") = bs "rack_1_n3" := by rw [C42_name rfl]; decide
example : ∀ c ∈ timeLetters, tmDemo c ≠ [] ∧ ∀ b ∈ tmDemo c, fileOk b = true := by decide

/-- A limit of C42: a name of two dots is used as it is, so a format with `%N` as a directory leads to the directory above. -/
theorem C42_dots : formatObj (List.replicate 64 0) (some { console := true, name := bs "..", dev := .other }) 1 tmDemo (bs "/log/%N/out") =
    some (bs "/log/../out" ++ List.replicate 53 0, 11) := by decide +kernel

/-! ### C69: no two consoles log to the same file -/

theorem logPname_plain {pid : Int} {tm : UInt8 → List UInt8} {l : LogReq} (h : (0x25 : UInt8) ∉ l.name) : logPname pid tm l = some l.name := by
  unfold logPname; rw [if_neg h]

/-- The name compared is the name opened, if the expansion is not too long. -/
theorem logPname_open {pid : Int} {tm : UInt8 → List UInt8} {l : LogReq} {f : List UInt8} (h : openName pid tm l = some (some f)) : logPname pid tm l = some f := by
  unfold openName at h
  unfold logPname
  split at h
  · rename_i hp
    rw [if_pos hp]
    cases hf : formatObj (List.replicate maxLine 0) (some l.con) pid tm l.name with
    | none => rw [hf] at h; simp at h
    | some r =>
      rw [hf] at h
      rw [Option.bind_some] at h ⊢
      split at h
      · simp at h
      · rw [if_pos (by omega)]
        cases hc : cstr r.1 with
        | none => rw [hc] at h; simp at h
        | some x => rw [hc] at h; simpa using h
  · rename_i hp
    rw [if_neg hp]; simpa using h

/-- What the check ensures for the objects created so far. -/
def LogsOk (pid : Int) (tm : UInt8 → List UInt8) (ls : List LogReq) : Prop :=
  ls.Pairwise fun a b => ∀ f, (0x25 : UInt8) ∉ a.name → openName pid tm b = some (some f) → a.name ≠ f

theorem createLogs_ok {pid : Int} {tm : UInt8 → List UInt8} : ∀ (ls : List LogReq) {have_ got : List LogReq}, LogsOk pid tm have_ →
    createLogs pid tm have_ ls = some got → LogsOk pid tm got
  | [], have_, got, h, e => by cases e; exact h
  | l :: ls, have_, got, h, e => by
    unfold createLogs at e
    cases hp : logPname pid tm l with
    | none => simp [createLog, hp] at e
    | some p =>
      simp only [createLog, hp, Option.map_some, Option.bind_some] at e
      split at e
      · exact createLogs_ok ls h e
      · rename_i hn
        refine createLogs_ok ls ?_ e
        rw [Option.getD_some]
        unfold LogsOk
        rw [List.pairwise_append]
        refine ⟨h, List.pairwise_singleton _ _, ?_⟩
        intro a ha b hb f _ hf e2
        rw [List.mem_singleton.1 hb] at hf
        rw [logPname_open hf] at hp
        cases hp
        apply hn
        rw [List.any_eq_true]
        exact ⟨a, ha, by simp [e2]⟩

/- Full statement of C69: no two of the log files created are opened by the same name.  It does not hold (C69_same_file): the names of the existing
objects are compared unexpanded. -/

/-- C69, the part that holds: of two log files that were not refused, the later is not opened by the name of the earlier if the name of the earlier has no
conversion specifiers. -/
theorem C69_distinct_partial {pid : Int} {tm : UInt8 → List UInt8} {ls got : List LogReq} (h : createLogs pid tm [] ls = some got) :
    got.Pairwise fun a b => (0x25 : UInt8) ∉ a.name → ∀ f, openName pid tm a = some (some f) → openName pid tm b = some (some f) → False := by
  refine List.Pairwise.imp ?_ (createLogs_ok ls List.Pairwise.nil h)
  intro a b hab h25 f ha hb
  refine hab f h25 hb ?_
  unfold openName at ha
  rw [if_neg h25] at ha
  simpa using ha

/-- C69 fails: the log of console `a` is given with a specifier, that of `b` by the same name written out. -/
theorem C69_same_file : ∃ a b got, createLogs 1 tmDemo [] [a, b] = some got ∧ a ∈ got ∧ b ∈ got ∧ a.con.name ≠ b.con.name ∧
    openName 1 tmDemo a = some (some (bs "/log/a")) ∧ openName 1 tmDemo b = some (some (bs "/log/a")) :=
  ⟨⟨{ console := true, name := bs "a", dev := .other }, bs "/log/%N"⟩, ⟨{ console := true, name := bs "b", dev := .other }, bs "/log/a"⟩,
    [⟨{ console := true, name := bs "a", dev := .other }, bs "/log/%N"⟩, ⟨{ console := true, name := bs "b", dev := .other }, bs "/log/a"⟩],
    by decide +kernel, by decide +kernel, by decide +kernel, by decide, by decide +kernel, by decide +kernel⟩

/-- The other way round it is noticed. -/
example : createLogs 1 tmDemo [] [⟨{ console := true, name := bs "b", dev := .other }, bs "/log/a"⟩, ⟨{ console := true, name := bs "a", dev := .other }, bs "/log/%N"⟩] =
    some [⟨{ console := true, name := bs "b", dev := .other }, bs "/log/a"⟩] := by decide +kernel

end Conman
