import Verif.Model.Device
import Verif.Lemma.Opts
import Verif.Lemma.Dec

/-
Lemmas about device strings.
-/
namespace Conman
open Spec (sameName digit TelnetForm PrefixForm inDir Fits PathOf foundIn)

theorem hasPrefix_iff (word dev : List UInt8) (hw : (0 : UInt8) ∉ word) (hd : (0 : UInt8) ∉ dev) :
    hasPrefix (word ++ [0x3A]) dev = true ↔ ∃ w rest, sameName w word ∧ dev = w ++ 0x3A :: rest := by
  unfold hasPrefix
  rw [decide_eq_true_iff, (strcasecmp_spec _ _ (fun h => hd (List.mem_of_mem_take h)) (by simp [hw])).2.1]
  constructor
  · intro h
    have hl := sameName_length h
    rw [List.length_take, List.length_append, List.length_singleton] at hl
    have e : dev.take (word.length + 1) = dev.take word.length ++ dev[word.length]?.toList := List.take_add_one
    have hlt : word.length < dev.length := by omega
    rw [List.getElem?_eq_getElem hlt, Option.toList_some] at e
    rw [List.length_append, List.length_singleton, e] at h
    unfold sameName at h
    rw [List.map_append, List.map_append] at h
    have h2 := List.append_inj h (by simp [List.length_take]; omega)
    have hc : dev[word.length] = 0x3A := by
      have := h2.2
      simp only [List.map_cons, List.map_nil, List.cons.injEq, and_true] at this
      exact byte_all (P := fun c => Spec.downcase c = Spec.downcase 0x3A → c = 0x3A) (by decide +kernel) _ this
    refine ⟨dev.take word.length, dev.drop (word.length + 1), h2.1, ?_⟩
    have := (List.take_append_drop (word.length + 1) dev).symm
    rw [e, hc, List.append_assoc] at this
    exact this
  · rintro ⟨w, rest, h, rfl⟩
    have hl := sameName_length h
    rw [List.length_append, List.length_singleton, ← hl, show w ++ 0x3A :: rest = (w ++ [0x3A]) ++ rest by simp, List.take_left' (by simp)]
    unfold sameName at *
    rw [List.map_append, List.map_append, h]

theorem drop_form {word w rest : List UInt8} (h : sameName w word) : (w ++ 0x3A :: rest).drop (word.length + 1) = rest := by
  rw [← sameName_length h, show w ++ 0x3A :: rest = (w ++ [0x3A]) ++ rest by simp, List.drop_left' (by simp)]

theorem absName_eq (cwd dev : List UInt8) [Decidable (Fits cwd dev)] : absName cwd dev = if Fits cwd dev then some (inDir cwd dev) else none := by
  unfold absName inDir
  by_cases h : dev.head? = some 0x2F
  · rw [if_neg (by simpa using h), if_pos (show Fits cwd dev from Or.inl h), if_pos h]
  · rw [if_pos h, if_neg h]
    by_cases h2 : (cwd ++ 0x2F :: dev).length < 4096
    · rw [if_neg (by omega), if_pos (show Fits cwd dev from Or.inr h2)]
    · rw [if_pos (by omega), if_neg (by rintro (g | g); exact h g; exact h2 g)]

theorem absName_some {cwd dev p : List UInt8} : absName cwd dev = some p ↔ Fits cwd dev ∧ p = inDir cwd dev := by
  haveI := Classical.propDecidable (Fits cwd dev)
  rw [absName_eq]
  split
  · rename_i h; simp [h, eq_comm]
  · rename_i h; simp [h]

theorem isUnixDev_iff {cwd dev p : List UInt8} (hd : (0 : UInt8) ∉ dev) :
    isUnixDev cwd dev = some p ↔ ∃ rest, PrefixForm (bs "unix") dev rest ∧ Fits cwd rest ∧ p = inDir cwd rest := by
  unfold isUnixDev
  have hp := hasPrefix_iff (bs "unix") dev (by decide) hd
  constructor
  · intro h
    by_cases c : hasPrefix (bs "unix:") dev = true
    · rw [if_neg (by rw [c]; simp)] at h
      obtain ⟨w, rest, g1, rfl⟩ := hp.1 c
      have e : (w ++ 0x3A :: rest).drop 5 = rest := drop_form g1
      rw [e] at h
      by_cases c2 : rest = []
      · rw [if_pos c2] at h; exact absurd h (by simp)
      · rw [if_neg c2, absName_some] at h
        exact ⟨rest, ⟨c2, w, g1, rfl⟩, h⟩
    · rw [if_pos (by simpa using c)] at h; exact absurd h (by simp)
  · rintro ⟨rest, ⟨hr, w, g1, rfl⟩, h⟩
    rw [if_neg (by rw [show bs "unix:" = bs "unix" ++ [0x3A] from rfl, hp.2 ⟨w, rest, g1, rfl⟩]; simp)]
    have e : (w ++ 0x3A :: rest).drop 5 = rest := drop_form g1
    rw [e, if_neg hr, absName_some]
    exact h

theorem isIpmiDev_iff {dev h : List UInt8} (hd : (0 : UInt8) ∉ dev) : isIpmiDev dev = some h ↔ PrefixForm (bs "ipmi") dev h := by
  unfold isIpmiDev
  have hp := hasPrefix_iff (bs "ipmi") dev (by decide) hd
  constructor
  · intro g
    by_cases c : hasPrefix (bs "ipmi:") dev = true
    · rw [if_neg (by rw [c]; simp)] at g
      obtain ⟨w, rest, g1, rfl⟩ := hp.1 c
      have e : (w ++ 0x3A :: rest).drop 5 = rest := drop_form g1
      rw [e] at g
      by_cases c2 : rest = []
      · rw [if_pos c2] at g; exact absurd g (by simp)
      · rw [if_neg c2, Option.some.injEq] at g
        subst g
        exact ⟨c2, w, g1, rfl⟩
    · rw [if_pos (by simpa using c)] at g; exact absurd g (by simp)
  · rintro ⟨hr, w, g1, rfl⟩
    rw [if_neg (by rw [show bs "ipmi:" = bs "ipmi" ++ [0x3A] from rfl, hp.2 ⟨w, h, g1, rfl⟩]; simp)]
    have e : (w ++ 0x3A :: h).drop 5 = h := drop_form g1
    rw [e, if_neg hr]

theorem split_colon {s : List UInt8} (h : (0x3A : UInt8) ∈ s) :
    ∃ a b, s = a ++ 0x3A :: b ∧ (0x3A : UInt8) ∉ a ∧ s.takeWhile (· ≠ 0x3A) = a ∧ s.dropWhile (· ≠ 0x3A) = 0x3A :: b := by
  induction s with
  | nil => exact absurd h (by simp)
  | cons c s ih =>
    by_cases hc : c = 0x3A
    · exact ⟨[], s, by rw [hc]; rfl, by simp, by rw [hc]; rfl, by rw [hc]; rfl⟩
    · have : (0x3A : UInt8) ∈ s := by
        rcases List.mem_cons.1 h with g | g
        · exact absurd g.symm hc
        · exact g
      obtain ⟨a, b, e1, e2, e3, e4⟩ := ih this
      refine ⟨c :: a, b, by rw [e1]; rfl, ?_, ?_, ?_⟩
      · simp only [List.mem_cons, not_or]; exact ⟨Ne.symm hc, e2⟩
      · rw [List.takeWhile_cons_of_pos (by simpa using hc), e3]
      · rw [List.dropWhile_cons_of_pos (by simpa using hc), e4]

theorem colon_unique {a b a' b' : List UInt8} (h : a ++ 0x3A :: b = a' ++ 0x3A :: b') (ha : (0x3A : UInt8) ∉ a) (ha' : (0x3A : UInt8) ∉ a') : a = a' ∧ b = b' := by
  induction a generalizing a' with
  | nil =>
    cases a' with
    | nil => simpa using h
    | cons x a' =>
      rw [List.nil_append, List.cons_append, List.cons.injEq] at h
      exact absurd (by simp [h.1]) ha'
  | cons x a ih =>
    cases a' with
    | nil =>
      rw [List.nil_append, List.cons_append, List.cons.injEq] at h
      exact absurd (by simp [h.1]) ha
    | cons y a' =>
      rw [List.cons_append, List.cons_append, List.cons.injEq] at h
      simp only [List.mem_cons, not_or] at ha ha'
      obtain ⟨e1, e2⟩ := ih h.2 ha.2 ha'.2
      exact ⟨by rw [h.1, e1], e2⟩

theorem atoi_digits_big {s : List UInt8} (h : ∀ c ∈ s, digit c) (hv : digitsVal s > 2147483647) : atoi s = none := by
  have h1 : s.dropWhile isSpace = s := by
    cases s with
    | nil => rfl
    | cons a s => rw [List.dropWhile_cons, digit_notSpace (h a (by simp))]; rfl
  have h2 : s.head? ≠ some 0x2D ∧ s.head? ≠ some 0x2B := by
    cases s with
    | nil => simp
    | cons a s =>
      have := h a (by simp)
      constructor <;> (intro g; simp only [List.head?_cons, Option.some.injEq] at g; subst g; revert this; decide)
  unfold atoi
  simp only [h1, h2.1, h2.2, decide_false, Bool.or_false, Bool.false_eq_true, if_false, takeWhile_digits h]
  rw [if_neg (by omega)]

/-- `is_telnet_dev` on a string of the form. -/
theorem isTelnetDev_form {dev host port : List UInt8} (hl : dev.length < 1024) (hf : TelnetForm dev host port) :
    isTelnetDev dev = (atoi port).map fun n => some (host, n) := by
  obtain ⟨rfl, h1, h2, h3⟩ := hf
  have hm : (0x3A : UInt8) ∈ host ++ 0x3A :: port := by simp
  obtain ⟨a, b, e1, e2, e3, e4⟩ := split_colon hm
  obtain ⟨rfl, rfl⟩ := colon_unique e1 h1 e2
  unfold isTelnetDev
  rw [if_neg (by unfold maxLine; omega), if_neg (by simp)]
  dsimp only
  rw [e3, e4, List.drop_succ_cons, List.drop_zero, takeWhile_digits h3, if_neg (by simpa using h2), if_neg (by simp)]

theorem isTelnetDev_not {dev : List UInt8} (h : dev.length ≥ 1024 ∨ ¬ ∃ host port, TelnetForm dev host port) : isTelnetDev dev = some none := by
  unfold isTelnetDev maxLine
  by_cases hl : dev.length ≥ 1024
  · rw [if_pos hl]
  rw [if_neg hl]
  have h := h.resolve_left hl
  by_cases hm : (0x3A : UInt8) ∈ dev
  · rw [if_neg (by simpa using hm)]
    obtain ⟨a, b, e1, e2, e3, e4⟩ := split_colon hm
    dsimp only
    rw [e3, e4, List.drop_succ_cons, List.drop_zero]
    by_cases c : (b.takeWhile isDigit).length = 0
    · rw [if_pos c]
    rw [if_neg c, List.drop_succ_cons]
    by_cases c2 : b.drop (b.takeWhile isDigit).length ≠ []
    · rw [if_pos c2]
    · exfalso
      apply h
      have hle : (b.takeWhile isDigit).length ≥ b.length := by
        have := congrArg List.length (Classical.not_not.1 c2)
        rw [List.length_drop, List.length_nil] at this; omega
      have hb : b.takeWhile isDigit = b := by
        have := (List.takeWhile_append_dropWhile (p := isDigit) (l := b))
        have hn : (b.dropWhile isDigit) = [] := by
          apply List.length_eq_zero_iff.1
          have := congrArg List.length this
          rw [List.length_append] at this; omega
        rw [hn, List.append_nil] at this; exact this
      refine ⟨a, b, e1, e2, ?_, fun x hx => ?_⟩
      · rintro rfl; simp at c
      · rw [← hb] at hx
        exact isDigit_digit (List.all_eq_true.1 List.all_takeWhile x hx)
  · rw [if_pos hm]

theorem tryDir_eq (fs : Fs) (src d : List UInt8) : tryDir fs src d =
    if (decide (fs.kind d = some .directory) && decide ((d ++ 0x2F :: src).length < 4096) && fs.exec (d ++ 0x2F :: src)) = true then some (d ++ 0x2F :: src) else none := by
  unfold tryDir
  by_cases h1 : fs.kind d = some .directory
  · rw [if_neg (by simpa using h1)]
    by_cases h2 : (d ++ 0x2F :: src).length < 4096
    · rw [if_neg (by omega)]
      cases h3 : fs.exec (d ++ 0x2F :: src)
      · simp
      · simp only [h1, h2, decide_true, Bool.and_self, if_true]; rfl
    · rw [if_pos (by omega)]; simp only [h2, decide_false, Bool.and_false, Bool.false_and]; rfl
  · rw [if_pos h1]; simp only [h1, decide_false, Bool.false_and]; rfl

theorem foundIn_cons (fs : Fs) (name d : List UInt8) (ds : List (List UInt8)) :
    foundIn fs name (d :: ds) = (match tryDir fs name d with | some f => some f | none => foundIn fs name ds) := by
  unfold foundIn
  rw [tryDir_eq, List.find?_cons]
  cases decide (fs.kind d = some .directory) && decide ((d ++ 0x2F :: name).length < 4096) && fs.exec (d ++ 0x2F :: name)
  · rfl
  · rfl

theorem tryDir_nil {fs : Fs} (h0 : fs.kind [] = none) (src : List UInt8) : tryDir fs src [] = none := by
  unfold tryDir; rw [h0]; rfl

theorem execLoop_spec {fs : Fs} (h0 : fs.kind [] = none) (src : List UInt8) {ds : List (List UInt8)} {path : List UInt8} (hp : PathOf ds path) :
    ∀ cur, execLoop fs src cur path = (match ds with | [] => none | d :: ds => foundIn fs src ((cur ++ d) :: ds)) := by
  have pre : ∀ (d cur rest : List UInt8), (0x3A : UInt8) ∉ d → execLoop fs src cur (d ++ rest) = execLoop fs src (cur ++ d) rest := by
    intro d
    induction d with
    | nil => intro cur rest _; rw [List.append_nil]; rfl
    | cons c d ih =>
      intro cur rest h
      simp only [List.mem_cons, not_or] at h
      rw [List.cons_append, execLoop, if_neg (Ne.symm h.1), ih _ _ h.2, List.append_assoc]; rfl
  induction hp with
  | one d h =>
    intro cur
    have := pre d cur [] h
    rw [List.append_nil] at this
    rw [this, execLoop]
    dsimp only
    rw [foundIn_cons]
    have hn : foundIn fs src [] = none := rfl
    by_cases hc : cur ++ d = []
    · rw [if_pos hc, hc, tryDir_nil h0, hn]
    · rw [if_neg hc, hn]
      cases tryDir fs src (cur ++ d) <;> rfl
  | cons d p ds h hp ih =>
    intro cur
    rw [pre d cur _ h, execLoop, if_pos rfl]
    dsimp only
    rw [foundIn_cons]
    cases tryDir fs src (cur ++ d) with
    | some f => rfl
    | none =>
      dsimp only
      rw [ih]
      cases hp <;> rfl

theorem pathOf_exists (path : List UInt8) : ∃ ds, PathOf ds path := by
  induction path with
  | nil => exact ⟨[[]], .one [] (by simp)⟩
  | cons c p ih =>
    obtain ⟨ds, h⟩ := ih
    by_cases hc : c = 0x3A
    · subst hc
      exact ⟨[] :: ds, by simpa using PathOf.cons [] p ds (by simp) h⟩
    · cases h with
      | one _ h => exact ⟨[c :: p], .one _ (by simp [Ne.symm hc, h])⟩
      | cons d q ds h hq => exact ⟨(c :: d) :: ds, by simpa using PathOf.cons (c :: d) q ds (by simp [Ne.symm hc, h]) hq⟩

end Conman
