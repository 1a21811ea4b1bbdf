import Verif.Model.Lex
import Verif.Spec.Lex

namespace Conman
open Spec

theorem toLower_eq (c : UInt8) : toLower c = downcase c := by
  unfold toLower downcase isUpper; simp

theorem downcase_ne_zero {c : UInt8} (h : c ≠ 0) : downcase c ≠ 0 := by
  unfold downcase
  split
  · rename_i h2
    intro h3
    have := congrArg UInt8.toNat h3
    have h4 := UInt8.le_iff_toNat_le.1 h2.1
    have h5 := UInt8.le_iff_toNat_le.1 h2.2
    simp at this h4 h5
    omega
  · exact h

theorem toNat_pos {c : UInt8} (h : c ≠ 0) : 0 < c.toNat := by
  rcases Nat.eq_zero_or_pos c.toNat with e | e
  · exact absurd (UInt8.toNat_inj.1 e) h
  · exact e

/-- `strcasecmp` compares names. -/
theorem strcasecmp_spec (a b : List UInt8) (ha : (0 : UInt8) ∉ a) (hb : (0 : UInt8) ∉ b) :
    (strcasecmp a b < 0 ↔ namesLt a b) ∧ (strcasecmp a b = 0 ↔ sameName a b) ∧ (strcasecmp a b > 0 ↔ namesLt b a) := by
  induction a generalizing b with
  | nil =>
    cases b with
    | nil => simp [strcasecmp, namesLt, sameName]
    | cons y b =>
      have := toNat_pos (downcase_ne_zero (c := y) (by rintro rfl; simp at hb))
      simp only [strcasecmp, namesLt, sameName, toLower_eq, List.map_nil, List.map_cons]
      refine ⟨⟨fun _ => trivial, fun _ => by omega⟩, ⟨fun h => by omega, fun h => by simp at h⟩, ⟨fun h => by omega, fun h => h.elim⟩⟩
  | cons x a ih =>
    cases b with
    | nil =>
      have := toNat_pos (downcase_ne_zero (c := x) (by rintro rfl; simp at ha))
      simp only [strcasecmp, namesLt, sameName, toLower_eq, List.map_nil, List.map_cons]
      refine ⟨⟨fun h => by omega, fun h => h.elim⟩, ⟨fun h => by omega, fun h => by simp at h⟩, ⟨fun _ => trivial, fun _ => by omega⟩⟩
    | cons y b =>
      simp only [List.mem_cons, not_or] at ha hb
      simp only [strcasecmp, namesLt, toLower_eq]
      by_cases h : downcase x = downcase y
      · rw [if_pos h]
        obtain ⟨h1, h2, h3⟩ := ih b ha.2 hb.2
        have e1 : ¬ downcase x < downcase y := by rw [h]; exact UInt8.lt_irrefl _
        have e2 : ¬ downcase y < downcase x := by rw [h]; exact UInt8.lt_irrefl _
        refine ⟨?_, ?_, ?_⟩
        · rw [h1]; exact ⟨fun g => Or.inr ⟨h, g⟩, fun g => g.elim (fun g => absurd g e1) (·.2)⟩
        · rw [h2]; simp [sameName, h]
        · rw [h3]; exact ⟨fun g => Or.inr ⟨h.symm, g⟩, fun g => g.elim (fun g => absurd g e2) (·.2)⟩
      · rw [if_neg h]
        have hne : (downcase x).toNat ≠ (downcase y).toNat := fun e => h (UInt8.toNat_inj.1 e)
        refine ⟨?_, ?_, ?_⟩
        · constructor
          · intro g; exact Or.inl (UInt8.lt_iff_toNat_lt.2 (by omega))
          · rintro (g | g)
            · have := UInt8.lt_iff_toNat_lt.1 g; omega
            · exact absurd g.1 h
        · constructor
          · intro g; omega
          · intro g; simp [sameName, h] at g
        · constructor
          · intro g; exact Or.inl (UInt8.lt_iff_toNat_lt.2 (by omega))
          · rintro (g | g)
            · have := UInt8.lt_iff_toNat_lt.1 g; omega
            · exact absurd g.1.symm h

theorem namesLt_trans {a b c : List UInt8} (h1 : namesLt a b) (h2 : namesLt b c) : namesLt a c := by
  induction a generalizing b c with
  | nil =>
    cases c with
    | nil => cases b <;> simp [namesLt] at h1 h2
    | cons z c => trivial
  | cons x a ih =>
    cases b with
    | nil => simp [namesLt] at h1
    | cons y b =>
      cases c with
      | nil => simp [namesLt] at h2
      | cons z c =>
        simp only [namesLt] at h1 h2 ⊢
        rcases h1 with h1 | ⟨e1, h1⟩ <;> rcases h2 with h2 | ⟨e2, h2⟩
        · exact Or.inl (UInt8.lt_trans h1 h2)
        · exact Or.inl (e2 ▸ h1)
        · exact Or.inl (e1 ▸ h2)
        · exact Or.inr ⟨e1.trans e2, ih h1 h2⟩

theorem namesLt_same {a b c : List UInt8} (h1 : namesLt a b) (h2 : sameName b c) : namesLt a c := by
  induction a generalizing b c with
  | nil =>
    cases b with
    | nil => simp [namesLt] at h1
    | cons y b =>
      cases c with
      | nil => simp [sameName] at h2
      | cons z c => trivial
  | cons x a ih =>
    cases b with
    | nil => simp [namesLt] at h1
    | cons y b =>
      cases c with
      | nil => simp [sameName] at h2
      | cons z c =>
        simp only [sameName, List.map_cons, List.cons.injEq] at h2
        simp only [namesLt] at h1 ⊢
        rcases h1 with h1 | ⟨e1, h1⟩
        · exact Or.inl (h2.1 ▸ h1)
        · exact Or.inr ⟨e1.trans h2.1, ih h1 h2.2⟩

theorem namesLt_irrefl (a : List UInt8) : ¬ namesLt a a := by
  induction a with
  | nil => simp [namesLt]
  | cons x a ih =>
    simp only [namesLt]
    rintro (h | h)
    · exact UInt8.lt_irrefl _ h
    · exact ih h.2

theorem namesLt_not_same {a b : List UInt8} (h : namesLt a b) : ¬ sameName a b := by
  intro h2
  exact namesLt_irrefl _ (namesLt_same h h2.symm)

theorem lookupLoop_spec (str : List UInt8) (toks : List (List UInt8)) (hs : (0 : UInt8) ∉ str) (ht : ∀ t ∈ toks, (0 : UInt8) ∉ t)
    (hsort : toks.Pairwise namesLt) : ∀ (n : Nat) (low high : Int), 0 ≤ low → high < toks.length → high - low + 1 < n → low ≤ high + 1 →
    (∀ (i : Nat) t, toks[i]? = some t → (i : Int) < low → namesLt t str) → (∀ (i : Nat) t, toks[i]? = some t → high < (i : Int) → namesLt str t) →
    (∃ (i : Nat) (t : List UInt8), toks[i]? = some t ∧ sameName str t ∧ lookupLoop str toks n low high = some ((i : Int) + lexTokOffset)) ∨
    ((∀ t ∈ toks, ¬ sameName str t) ∧ lookupLoop str toks n low high = some lexStr) := by
  intro n
  induction n with
  | zero => intro low high h1 h2 h3; omega
  | succ n ih =>
    intro low high h1 h2 h3 h4 hl hh
    unfold lookupLoop
    by_cases hle : low ≤ high
    · rw [if_pos hle]
      dsimp only
      have hm1 : low ≤ (low + high) / 2 := by omega
      have hm2 : (low + high) / 2 ≤ high := by omega
      generalize (low + high) / 2 = m at hm1 hm2
      have hm : m.toNat < toks.length := by omega
      have hmm : ((m.toNat : Nat) : Int) = m := by omega
      have e : toks[m.toNat]? = some toks[m.toNat] := List.getElem?_eq_getElem hm
      rw [e]
      dsimp only
      have hmem : toks[m.toNat] ∈ toks := List.getElem_mem hm
      obtain ⟨c1, c2, c3⟩ := strcasecmp_spec str toks[m.toNat] hs (ht _ hmem)
      by_cases hlt : strcasecmp str toks[m.toNat] < 0
      · rw [if_pos hlt]
        refine ih low (m - 1) h1 (by omega) (by omega) (by omega) hl ?_
        intro i t hi him
        by_cases g : i = m.toNat
        · subst g; rw [e] at hi; injection hi with hi; subst hi; exact c1.1 hlt
        · have hil : i < toks.length := by
            rcases Nat.lt_or_ge i toks.length with h | h
            · exact h
            · rw [List.getElem?_eq_none h] at hi; exact absurd hi (by simp)
          have := List.pairwise_iff_getElem.1 hsort m.toNat i hm hil (by omega)
          rw [List.getElem?_eq_getElem hil] at hi; injection hi with hi; subst hi
          exact namesLt_trans (c1.1 hlt) this
      · rw [if_neg hlt]
        by_cases hgt : strcasecmp str toks[m.toNat] > 0
        · rw [if_pos hgt]
          refine ih (m + 1) high (by omega) h2 (by omega) (by omega) ?_ hh
          intro i t hi him
          by_cases g : i = m.toNat
          · subst g; rw [e] at hi; injection hi with hi; subst hi; exact c3.1 hgt
          · have hil : i < toks.length := by omega
            have := List.pairwise_iff_getElem.1 hsort i m.toNat hil hm (by omega)
            rw [List.getElem?_eq_getElem hil] at hi; injection hi with hi; subst hi
            exact namesLt_trans this (c3.1 hgt)
        · rw [if_neg hgt]
          left
          exact ⟨m.toNat, _, e, c2.1 (by omega), by rw [hmm]⟩
    · rw [if_neg hle]
      right
      refine ⟨fun t ht' hsame => ?_, rfl⟩
      obtain ⟨i, hi, rfl⟩ := List.getElem_of_mem ht'
      rcases Int.lt_or_le (i : Int) low with g | g
      · exact namesLt_not_same (hl i _ (List.getElem?_eq_getElem hi) g) hsame.symm
      · exact namesLt_not_same (hh i _ (List.getElem?_eq_getElem hi) (by omega)) hsame

theorem lookupToken_spec (str : List UInt8) (toks : List (List UInt8)) (hs : (0 : UInt8) ∉ str) (ht : ∀ t ∈ toks, (0 : UInt8) ∉ t)
    (hsort : toks.Pairwise namesLt) :
    (∃ (i : Nat) (t : List UInt8), toks[i]? = some t ∧ sameName str t ∧ lookupToken str toks = some ((i : Int) + lexTokOffset)) ∨
    ((∀ t ∈ toks, ¬ sameName str t) ∧ lookupToken str toks = some lexStr) := by
  unfold lookupToken
  refine lookupLoop_spec str toks hs ht hsort (toks.length + 1) 0 (toks.length - 1) (by omega) (by omega) (by omega) (by omega) ?_ ?_
  · intro i t _ h; omega
  · intro i t hi h
    have : i < toks.length := by
      rcases Nat.lt_or_ge i toks.length with h | h
      · exact h
      · rw [List.getElem?_eq_none h] at hi; exact absurd hi (by simp)
    omega

theorem isAlphaU_iff (c : UInt8) : (isAlpha c || decide (c = 0x5F)) = true ↔ letter c := by
  unfold isAlpha isUpper isLower letter; simp [or_assoc]
theorem isDigit_iff (c : UInt8) : isDigit c = true ↔ digit c := by
  unfold isDigit digit; simp
theorem isIdent_iff (c : UInt8) : (isAlnum c || decide (c = 0x5F)) = true ↔ letter c ∨ digit c := by
  unfold isAlnum; rw [← isDigit_iff, ← isAlphaU_iff]
  cases isAlpha c <;> cases isDigit c <;> simp

/-- A scan over a terminated string. -/
theorem scan_spec (go : UInt8 → Bool) (h0 : go 0 = false) (s junk : List UInt8) :
    ∃ a r, s = a ++ r ∧ (∀ c ∈ a, go c = true) ∧ (∀ c, r.head? = some c → go c = false) ∧
      scan go (s ++ 0 :: junk) = some (a, r ++ 0 :: junk) := by
  induction s with
  | nil => exact ⟨[], [], rfl, by simp, by simp, by simp [scan, h0]⟩
  | cons x s ih =>
    obtain ⟨a, r, e, h1, h2, h3⟩ := ih
    cases hx : go x with
    | true =>
      refine ⟨x :: a, r, by rw [e]; rfl, ?_, h2, ?_⟩
      · intro c hc
        rcases List.mem_cons.1 hc with rfl | hc
        · exact hx
        · exact h1 c hc
      · rw [List.cons_append]; unfold scan; rw [if_pos hx, h3]; rfl
    | false =>
      refine ⟨[], x :: s, rfl, by simp, by simpa using hx, ?_⟩
      rw [List.cons_append]; unfold scan; rw [if_neg (by simp [hx])]

theorem schar_code (c : UInt8) : schar c = (Token.chr c).code := rfl

theorem newlines_cons {c : UInt8} (h : ¬ isNl c) (a : List UInt8) : newlines (c :: a) = newlines a := by
  unfold isNl at h
  simp only [not_or] at h
  cases a with
  | nil => simp [newlines, h]
  | cons d a => rw [newlines]; simp [h]

theorem newlines_lf (a : List UInt8) : newlines (0x0A :: a) = 1 + newlines a := by
  cases a with
  | nil => simp [newlines]
  | cons d a => rw [newlines]; simp

theorem newlines_crlf (a : List UInt8) : newlines (0x0D :: 0x0A :: a) = 1 + newlines a := by
  rw [newlines]; simp

theorem newlines_cr {a : List UInt8} (h : a.head? ≠ some 0x0A) : newlines (0x0D :: a) = 1 + newlines a := by
  cases a with
  | nil => simp [newlines]
  | cons d a =>
    rw [newlines]
    simp only [List.head?_cons, ne_eq, Option.some.injEq] at h
    simp [h]

theorem newlines_skip {w : List UInt8} (h : ∀ c ∈ w, ¬ isNl c) (a : List UInt8) : newlines (w ++ a) = newlines a := by
  induction w with
  | nil => rfl
  | cons x w ih => rw [List.cons_append, newlines_cons (h x (by simp)), ih (fun c hc => h c (by simp [hc]))]

/-- What a call of `lex_next` (after the line count) does to a terminated string. -/
def LexOut (keys : List (List UInt8)) (l : Lex) (s junk : List UInt8) (res : Option (Lex × Int)) : Prop :=
  ∃ a b r text t, s = a ++ (b ++ r) ∧ Skips a (b ++ r) ∧ IsToken keys b r text t ∧
    res = some ({ pos := r ++ 0 :: junk, text := text, prev := t.code, line := l.line + newlines a, gotEOL := decide (t = .eol) }, t.code)

theorem LexOut.tok {keys : List (List UInt8)} {l : Lex} {s junk : List UInt8} {res : Option (Lex × Int)} {b r text : List UInt8} {t : Token}
    (h1 : s = b ++ r) (h2 : IsToken keys b r text t)
    (h3 : res = some ({ pos := r ++ 0 :: junk, text := text, prev := t.code, line := l.line, gotEOL := decide (t = .eol) }, t.code)) :
    LexOut keys l s junk res :=
  ⟨[], b, r, text, t, h1, .nil _, h2, by rw [h3]; simp [newlines]⟩

theorem take_text {w : List UInt8} (h : w.length < 1023) : lexText w = w := List.take_of_length_le (by unfold lexMaxStr; omega)

theorem sameName_length {a b : List UInt8} (h : sameName a b) : a.length = b.length := by
  have := congrArg List.length h; simpa using this

theorem lexDefault_spec {keys : List (List UInt8)} (hk : KeysOk keys) {l : Lex} (hg : l.gotEOL = false) {c : UInt8} {s junk : List UInt8}
    (hz : (0 : UInt8) ∉ c :: s)
    (h : ¬ (c = 0x20 ∨ c = 0x09 ∨ c = 0x0B ∨ c = 0x0C ∨ c = 0x23 ∨ isNl c ∨ c = 0x22 ∨ c = 0x27))
    (hb : c = 0x5C → s.head? ≠ some 0x0A ∧ ∀ r', s ≠ 0x0D :: 0x0A :: r') :
    LexOut keys l (c :: s) junk (lexDefault keys l c (s ++ 0 :: junk)) := by
  have num : ∀ (res : Option (Lex × Int)), lexNumber l c (s ++ 0 :: junk) = res → (digit c ∨ ((c = 0x2D ∨ c = 0x2B) ∧ ∃ x, s.head? = some x ∧ digit x)) →
      LexOut keys l (c :: s) junk res := by
    intro res hres hd
    obtain ⟨a, r, e, h1, h2, h3⟩ := scan_spec (fun x => x ≠ 0 && isDigit x) (by simp) s junk
    unfold lexNumber at hres
    rw [h3, Option.map_some] at hres
    subst hres
    have ha : ∀ x ∈ a, digit x := fun x hx => by
      have := h1 x hx; simp only [Bool.and_eq_true] at this; exact (isDigit_iff x).1 this.2
    have hr : ∀ x, r.head? = some x → ¬ digit x := fun x hx hd => by
      have := h2 x hx
      have hx0 : x ≠ 0 := by
        rintro rfl
        apply hz; rw [e]
        cases r with
        | nil => simp at hx
        | cons y r => simp at hx; subst hx; simp
      simp only [ne_eq, hx0, not_false_eq_true, decide_true, Bool.true_and] at this
      rw [(isDigit_iff x).2 hd] at this; exact absurd this (by simp)
    rcases hd with hd | ⟨hsg, x, hx, hdx⟩
    · refine LexOut.tok (b := c :: a) (r := r) (t := .int) (by rw [e]; rfl) (.number _ _ (by simp) ?_ hr) (by simp [hg, lexText, lexMaxStr, lexInt, Token.code])
      intro y hy
      rcases List.mem_cons.1 hy with rfl | hy
      · exact hd
      · exact ha y hy
    · refine LexOut.tok (b := c :: a) (r := r) (t := .int) (by rw [e]; rfl) (.signed c hsg a r ?_ ha hr) (by simp [hg, lexText, lexMaxStr, lexInt, Token.code])
      rintro rfl
      rw [List.nil_append] at e
      subst e
      exact hr x hx hdx
  have chr : ∀ (res : Option (Lex × Int)), lexChar l c (s ++ 0 :: junk) = res → ¬ letter c → ¬ digit c →
      (c = 0x2D ∨ c = 0x2B → ∀ x, s.head? = some x → ¬ digit x) → LexOut keys l (c :: s) junk res := by
    intro res hres hl hd hs
    subst hres
    refine LexOut.tok (b := [c]) (r := s) (t := .chr c) rfl (.chr c s ?_ hs hb) (by simp [lexChar, hg, schar_code])
    simp only [not_or] at h ⊢
    exact ⟨h.1, h.2.1, h.2.2.1, h.2.2.2.1, h.2.2.2.2.1, h.2.2.2.2.2.1, h.2.2.2.2.2.2.1, h.2.2.2.2.2.2.2, hl, hd⟩
  unfold lexDefault
  by_cases hl : letter c
  · rw [if_pos ((isAlphaU_iff c).2 hl)]
    obtain ⟨a, r, e, h1, h2, h3⟩ := scan_spec (fun x => x ≠ 0 && (isAlnum x || x = 0x5F)) (by simp) s junk
    rw [h3, Option.bind_some]
    dsimp only
    have ha : ∀ x ∈ a, letter x ∨ digit x := fun x hx => by
      have := h1 x hx; simp only [Bool.and_eq_true] at this; exact (isIdent_iff x).1 this.2
    have hr : ∀ x, r.head? = some x → ¬ (letter x ∨ digit x) := fun x hx hd => by
      have := h2 x hx
      have hx0 : x ≠ 0 := by
        rintro rfl
        apply hz; rw [e]
        cases r with
        | nil => simp at hx
        | cons y r => simp at hx; subst hx; simp
      simp only [ne_eq, hx0, not_false_eq_true, decide_true, Bool.true_and] at this
      rw [(isIdent_iff x).2 hd] at this; exact absurd this (by simp)
    have hz2 : (0 : UInt8) ∉ c :: a := by
      rw [e] at hz; simp only [List.mem_cons, List.mem_append, not_or] at hz ⊢; exact ⟨hz.1, hz.2.1⟩
    have hz3 : (0 : UInt8) ∉ lexText (c :: a) := fun hm => hz2 (List.mem_of_mem_take hm)
    rcases lookupToken_spec (lexText (c :: a)) keys hz3 hk.nz hk.sorted with ⟨i, k, hi, hs, hlk⟩ | ⟨hn, hlk⟩
    · rw [hlk, Option.map_some]
      have hlen := sameName_length hs
      have hkl := hk.short k (List.mem_of_getElem? hi)
      have ht : lexText (c :: a) = c :: a := by
        unfold lexText lexMaxStr at hlen ⊢
        rw [List.length_take] at hlen
        exact List.take_of_length_le (by omega)
      rw [ht] at hs ⊢
      refine LexOut.tok (b := c :: a) (r := r) (t := .key i) (by rw [e]; rfl) (.keyword c a r hl ha hr i k hi hs) ?_
      simp [hg, Token.code, lexTokOffset, Int.add_comm]
    · rw [hlk, Option.map_some]
      refine LexOut.tok (b := c :: a) (r := r) (t := .str) (by rw [e]; rfl) (.word c a r hl ha hr ?_) (by simp [hg, Token.code, lexStr, lexText, lexMaxStr])
      intro k hkm hs
      have hlen := sameName_length hs
      have hkl := hk.short k hkm
      rw [take_text (by omega)] at hn
      exact hn k hkm hs
  · rw [if_neg (fun g => hl ((isAlphaU_iff c).1 g))]
    by_cases hd : digit c
    · rw [if_pos ((isDigit_iff c).2 hd)]; exact num _ rfl (Or.inl hd)
    · rw [if_neg (fun g => hd ((isDigit_iff c).1 g))]
      by_cases hs : c = 0x2D ∨ c = 0x2B
      · rw [if_pos (by simpa using hs)]
        cases s with
        | nil =>
          simp only [List.nil_append]
          rw [if_neg (by decide)]
          exact chr _ rfl hl hd (fun _ x hx => by simp at hx)
        | cons x s =>
          simp only [List.cons_append]
          by_cases hx : digit x
          · rw [if_pos ((isDigit_iff x).2 hx)]; exact num _ rfl (Or.inr ⟨hs, x, rfl, hx⟩)
          · rw [if_neg (fun g => hx ((isDigit_iff x).1 g))]
            refine chr _ rfl hl hd (fun _ y hy => ?_)
            simp at hy; subst hy; exact hx
      · rw [if_neg (by simpa using hs)]
        exact chr _ rfl hl hd (fun g => absurd g hs)

theorem LexOut.skip {keys : List (List UInt8)} {l l' : Lex} {s junk p : List UInt8} {res : Option (Lex × Int)}
    (h : LexOut keys l' s junk res) (hl : l.line + newlines p = l'.line) (hp : ∀ a, newlines (p ++ a) = newlines p + newlines a)
    (hs : ∀ a b, s = a ++ b → Skips a b → Skips (p ++ a) b) : LexOut keys l (p ++ s) junk res := by
  obtain ⟨a, b, r, text, t, e, h1, h2, h3⟩ := h
  refine ⟨p ++ a, b, r, text, t, by rw [e, List.append_assoc], hs _ _ e h1, h2, ?_⟩
  rw [h3, hp, ← hl]
  simp only [Nat.add_assoc]

theorem lexLoop_spec {keys : List (List UInt8)} (hk : KeysOk keys) (junk : List UInt8) : ∀ (n : Nat) (l : Lex) (s : List UInt8),
    l.gotEOL = false → l.pos = s ++ 0 :: junk → (0 : UInt8) ∉ s → s.length < n → LexOut keys l s junk (lexLoop keys n l) := by
  intro n
  induction n with
  | zero => intro l s _ _ _ h; omega
  | succ n ih =>
    intro l s hg hpos hz hn
    unfold lexLoop
    rw [hpos]
    cases s with
    | nil =>
      simp only [List.nil_append, if_true]
      exact LexOut.tok (b := []) (r := []) (t := .eof) rfl .eof (by simp [hg, hpos, lexEof, Token.code])
    | cons c s =>
      simp only [List.cons_append]
      have hc0 : c ≠ 0 := by rintro rfl; simp at hz
      have hz' : (0 : UInt8) ∉ s := by simp only [List.mem_cons, not_or] at hz; exact hz.2
      simp only [List.length_cons] at hn
      rw [if_neg hc0]
      by_cases hbl : c = 0x20 ∨ c = 0x09 ∨ c = 0x0B ∨ c = 0x0C
      · rw [if_pos (by simpa [or_assoc] using hbl)]
        have hnl : ¬ isNl c := by rcases hbl with rfl | rfl | rfl | rfl <;> decide
        refine LexOut.skip (p := [c]) (ih { l with pos := s ++ 0 :: junk } s hg rfl hz' (by omega)) ?_ ?_ ?_
        · rw [newlines_cons hnl]; rfl
        · intro a; rw [List.singleton_append, newlines_cons hnl, newlines_cons hnl]; simp [newlines]
        · intro a b _ h; exact .blank c hbl a b h
      · rw [if_neg (by simpa [or_assoc] using hbl)]
        by_cases hcm : c = 0x23
        · rw [if_pos hcm]
          subst hcm
          obtain ⟨a, r, e, h1, h2, h3⟩ := scan_spec (fun x => x ≠ 0 && x ≠ 0x0A && x ≠ 0x0D) (by simp) s junk
          rw [h3, Option.bind_some]
          dsimp only
          have hw : ∀ x ∈ a, ¬ isNl x := fun x hx => by
            have := h1 x hx; simp at this; rintro (rfl | rfl) <;> simp at this
          have hr : atLineEnd r := fun x hx => by
            have := h2 x hx
            have hx0 : x ≠ 0 := by
              rintro rfl
              apply hz'; rw [e]
              cases r with
              | nil => simp at hx
              | cons y r => simp at hx; subst hx; simp
            simp only [ne_eq, hx0, not_false_eq_true, decide_true, Bool.true_and, Bool.and_eq_false_iff, decide_eq_false_iff_not,
              Decidable.not_not] at this
            exact this.symm
          have hn1 : newlines (0x23 :: a) = 0 := by
            have := newlines_skip (w := 0x23 :: a) (fun x hx => by
              rcases List.mem_cons.1 hx with rfl | hx
              · decide
              · exact hw x hx) []
            rwa [List.append_nil] at this
          have h := LexOut.skip (p := 0x23 :: a) (l := l) (ih { l with pos := r ++ 0 :: junk } r hg rfl (by rw [e] at hz'; simp at hz'; exact hz'.2)
            (by rw [e] at hn; simp at hn; omega)) (by rw [hn1]; rfl) (fun x => by
              rw [hn1, newlines_skip, Nat.zero_add]
              intro y hy
              rcases List.mem_cons.1 hy with rfl | hy
              · decide
              · exact hw y hy) (fun x b ex h => .comment a hw x b (by rw [← ex]; exact hr) h)
          rw [e]
          exact h
        · rw [if_neg hcm]
          by_cases hcr : c = 0x0D
          · rw [if_pos hcr]
            subst hcr
            cases s with
            | nil =>
              simp only [List.nil_append]
              rw [if_neg (by decide)]
              refine LexOut.tok (b := [0x0D]) (r := []) (t := .eol) rfl (.cr [] (by simp)) ?_
              simp [lexAtEol, Token.code, lexEol]
            | cons d s =>
              simp only [List.cons_append]
              by_cases hd : d = 0x0A
              · rw [if_pos hd]; subst hd
                refine LexOut.tok (b := [0x0D, 0x0A]) (r := s) (t := .eol) rfl (.crlf s) ?_
                simp [lexAtEol, Token.code, lexEol]
              · rw [if_neg hd]
                refine LexOut.tok (b := [0x0D]) (r := d :: s) (t := .eol) rfl (.cr _ (by simpa using hd)) ?_
                simp [lexAtEol, Token.code, lexEol]
          · rw [if_neg hcr]
            by_cases hlf : c = 0x0A
            · rw [if_pos hlf]; subst hlf
              refine LexOut.tok (b := [0x0A]) (r := s) (t := .eol) rfl (.lf s) ?_
              simp [lexAtEol, Token.code, lexEol]
            · rw [if_neg hlf]
              by_cases hq : c = 0x22 ∨ c = 0x27
              · rw [if_pos (by simpa using hq)]
                unfold lexQuote
                obtain ⟨a, r, e, h1, h2, h3⟩ := scan_spec (fun x => x ≠ 0 && x ≠ c && x ≠ 0x0D && x ≠ 0x0A) (by simp) s junk
                rw [h3, Option.bind_some]
                dsimp only
                have hw : ∀ x ∈ a, x ≠ c ∧ ¬ isNl x := fun x hx => by
                  have := h1 x hx; simp at this
                  exact ⟨this.1.1.2, by rintro (rfl | rfl) <;> simp at this⟩
                cases r with
                | nil =>
                  simp only [List.nil_append]
                  rw [if_neg hc0.symm]
                  refine LexOut.tok (b := c :: a) (r := []) (t := .err) (by rw [e]; rfl) (.unmatched c hq a [] hw (by simp [atLineEnd])) ?_
                  simp [hg, Token.code, lexErr]
                | cons y r =>
                  simp only [List.cons_append]
                  by_cases hy : y = c
                  · rw [if_pos hy]; subst hy
                    refine LexOut.tok (b := y :: a ++ [y]) (r := r) (t := .str) (by rw [e]; simp) (.quoted y hq a r hw) ?_
                    simp [hg, Token.code, lexStr, lexText, lexMaxStr]
                  · rw [if_neg hy]
                    refine LexOut.tok (b := c :: a) (r := y :: r) (t := .err) (by rw [e]; rfl) (.unmatched c hq a (y :: r) hw ?_) ?_
                    · intro x hx
                      simp at hx; subst hx
                      have := h2 y rfl
                      have hx0 : y ≠ 0 := by rintro rfl; apply hz'; rw [e]; simp
                      simp [hx0, hy] at this
                      unfold isNl
                      by_cases g : y = 0x0D
                      · exact Or.inl g
                      · exact Or.inr (this g)
                    · simp [hg, Token.code, lexErr]
              · rw [if_neg (by simpa using hq)]
                have hrest : ¬ (c = 0x20 ∨ c = 0x09 ∨ c = 0x0B ∨ c = 0x0C ∨ c = 0x23 ∨ isNl c ∨ c = 0x22 ∨ c = 0x27) := by
                  simp only [not_or, isNl] at hbl hq ⊢
                  exact ⟨hbl.1, hbl.2.1, hbl.2.2.1, hbl.2.2.2, hcm, ⟨hcr, hlf⟩, hq.1, hq.2⟩
                by_cases hbs : c = 0x5C
                · rw [if_pos hbs]
                  cases s with
                  | nil =>
                    simp only [List.nil_append]
                    rw [if_neg (by decide), if_neg (by decide)]
                    exact lexDefault_spec hk hg hz hrest (fun _ => ⟨by simp, by simp⟩)
                  | cons d s =>
                    simp only [List.cons_append]
                    simp only [List.mem_cons, not_or] at hz'
                    simp only [List.length_cons] at hn
                    by_cases hd : d = 0x0A
                    · rw [if_pos hd]; subst hd; subst hbs
                      refine LexOut.skip (p := [0x5C, 0x0A]) (ih { l with pos := s ++ 0 :: junk, line := l.line + 1 } s hg rfl hz'.2 (by omega)) ?_ ?_ ?_
                      · rfl
                      · intro a
                        rw [List.cons_append, List.singleton_append, newlines_cons (by decide), newlines_lf]
                        rfl
                      · intro a b _ h; exact .continued [0x0A] (Or.inl rfl) a b h
                    · rw [if_neg hd]
                      by_cases hd2 : d = 0x0D
                      · rw [if_pos hd2]; subst hd2
                        cases s with
                        | nil =>
                          simp only [List.nil_append]
                          rw [if_neg (by decide)]
                          exact lexDefault_spec hk hg hz hrest (fun _ => ⟨by simp, by simp⟩)
                        | cons e s =>
                          simp only [List.cons_append]
                          simp only [List.mem_cons, not_or] at hz'
                          simp only [List.length_cons] at hn
                          by_cases he : e = 0x0A
                          · rw [if_pos he]; subst he; subst hbs
                            refine LexOut.skip (p := [0x5C, 0x0D, 0x0A]) (ih { l with pos := s ++ 0 :: junk, line := l.line + 1 } s hg rfl hz'.2.2 (by omega)) ?_ ?_ ?_
                            · rfl
                            · intro a
                              rw [List.cons_append, List.cons_append, List.singleton_append, newlines_cons (by decide), newlines_crlf]
                              rfl
                            · intro a b _ h; exact .continued [0x0D, 0x0A] (Or.inr rfl) a b h
                          · rw [if_neg he]
                            exact lexDefault_spec hk hg hz hrest (fun _ => ⟨by simp, by intro r' h; simp at h; exact he h.1⟩)
                      · rw [if_neg hd2]
                        exact lexDefault_spec hk hg hz hrest (fun _ => ⟨by simpa using hd, by intro r' h; simp at h; exact hd2 h.1⟩)
                · rw [if_neg hbs]
                  exact lexDefault_spec hk hg hz hrest (fun g => absurd g hbs)

theorem scan_eq {go : UInt8 → Bool} {a r junk : List UInt8} (h : ∀ x ∈ a, go x = true) (h0 : go 0 = false) (hr : ∀ x, r.head? = some x → go x = false) :
    scan go (a ++ (r ++ 0 :: junk)) = some (a, r ++ 0 :: junk) := by
  induction a with
  | nil =>
    cases r with
    | nil => simp [scan, h0]
    | cons x r => simp [scan, hr x rfl]
  | cons x a ih =>
    rw [List.cons_append, scan, h x (by simp), ih (fun y hy => h y (by simp [hy]))]
    rfl

theorem key_unique {keys : List (List UInt8)} (hk : KeysOk keys) {i j : Nat} {a b : List UInt8} (hi : keys[i]? = some a) (hj : keys[j]? = some b)
    (h : sameName a b) : i = j := by
  have hp := List.pairwise_iff_getElem.1 hk.sorted
  obtain ⟨hi', ei⟩ := List.getElem?_eq_some_iff.1 hi
  obtain ⟨hj', ej⟩ := List.getElem?_eq_some_iff.1 hj
  rcases Nat.lt_trichotomy i j with hlt | heq | hgt
  · have := hp i j hi' hj' hlt
    rw [ei, ej] at this
    exact absurd h (namesLt_not_same this)
  · exact heq
  · have := hp j i hj' hi' hgt
    rw [ei, ej] at this
    exact absurd (Eq.symm h) (namesLt_not_same this)

theorem isNl_ne_quote {c q : UInt8} (h : q = 0x22 ∨ q = 0x27) (hc : isNl c) : c ≠ q := by
  rcases h with rfl | rfl <;> rcases hc with rfl | rfl <;> decide

theorem lexTok_complete {keys : List (List UInt8)} (hk : KeysOk keys) (junk : List UInt8) {b r text : List UInt8} {t : Token}
    (ht : IsToken keys b r text t) (l : Lex) (n : Nat) (hg : l.gotEOL = false) (hz : (0 : UInt8) ∉ b ++ r) (hpos : l.pos = b ++ (r ++ 0 :: junk)) :
    lexLoop keys (n + 1) l = some ({ pos := r ++ 0 :: junk, text := text, prev := t.code, line := l.line, gotEOL := decide (t = .eol) }, t.code) := by
  unfold lexLoop
  rw [hpos]
  have hd0 : ∀ {r : List UInt8}, (0 : UInt8) ∉ r → ∀ x, r.head? = some x → x ≠ 0 := by
    intro r h x hx
    rintro rfl
    cases r with
    | nil => simp at hx
    | cons y r => simp at hx; subst hx; simp at h
  have ident : ∀ (c : UInt8) (w : List UInt8), letter c → (∀ x ∈ w, letter x ∨ digit x) → (∀ x, r.head? = some x → ¬ (letter x ∨ digit x)) →
      (0 : UInt8) ∉ (c :: w) ++ r → scan (fun x => x ≠ 0 && (isAlnum x || x = 0x5F)) (w ++ (r ++ 0 :: junk)) = some (w, r ++ 0 :: junk) := by
    intro c w hc hw hr hz
    simp only [List.mem_append, List.mem_cons, not_or] at hz
    refine scan_eq (fun x hx => ?_) (by simp) (fun x hx => ?_)
    · have hx0 : x ≠ 0 := by rintro rfl; exact hz.1.2 hx
      simp only [ne_eq, hx0, not_false_eq_true, decide_true, Bool.true_and]
      exact (isIdent_iff x).2 (hw x hx)
    · simp only [ne_eq, hd0 hz.2 x hx, not_false_eq_true, decide_true, Bool.true_and]
      exact Bool.eq_false_iff.2 (fun g => hr x hx ((isIdent_iff x).1 g))
  have numb : ∀ (w : List UInt8), (∀ x ∈ w, digit x) → (∀ x, r.head? = some x → ¬ digit x) → (0 : UInt8) ∉ w ++ r →
      scan (fun x => x ≠ 0 && isDigit x) (w ++ (r ++ 0 :: junk)) = some (w, r ++ 0 :: junk) := by
    intro w hw hr hz
    simp only [List.mem_append, not_or] at hz
    refine scan_eq (fun x hx => ?_) (by simp) (fun x hx => ?_)
    · have hx0 : x ≠ 0 := by rintro rfl; exact hz.1 hx
      simp only [ne_eq, hx0, not_false_eq_true, decide_true, Bool.true_and]
      exact (isDigit_iff x).2 (hw x hx)
    · simp only [ne_eq, hd0 hz.2 x hx, not_false_eq_true, decide_true, Bool.true_and]
      exact Bool.eq_false_iff.2 (fun g => hr x hx ((isDigit_iff x).1 g))
  have hletter : ∀ c, letter c → c ≠ 0 ∧ c ≠ 0x20 ∧ c ≠ 0x09 ∧ c ≠ 0x0B ∧ c ≠ 0x0C ∧ c ≠ 0x23 ∧ c ≠ 0x0D ∧ c ≠ 0x0A ∧ c ≠ 0x22 ∧ c ≠ 0x27 ∧ c ≠ 0x5C := by
    intro c hc
    refine ⟨?_, ?_, ?_, ?_, ?_, ?_, ?_, ?_, ?_, ?_, ?_⟩ <;> (rintro rfl; revert hc; decide)
  have hdigit : ∀ c, digit c → c ≠ 0 ∧ c ≠ 0x20 ∧ c ≠ 0x09 ∧ c ≠ 0x0B ∧ c ≠ 0x0C ∧ c ≠ 0x23 ∧ c ≠ 0x0D ∧ c ≠ 0x0A ∧ c ≠ 0x22 ∧ c ≠ 0x27 ∧ c ≠ 0x5C := by
    intro c hc
    refine ⟨?_, ?_, ?_, ?_, ?_, ?_, ?_, ?_, ?_, ?_, ?_⟩ <;> (rintro rfl; revert hc; decide)
  cases ht with
  | eof => simp [hg, hpos, lexEof, Token.code]
  | lf => simp [lexAtEol, Token.code, lexEol]
  | crlf => simp [lexAtEol, Token.code, lexEol]
  | cr _ h =>
    cases r with
    | nil => simp [lexAtEol, Token.code, lexEol]
    | cons d r =>
      simp only [List.head?_cons, ne_eq, Option.some.injEq] at h
      simp [lexAtEol, Token.code, lexEol, h]
  | quoted q hq w _ hw =>
    simp only [List.mem_append, List.mem_cons, not_or] at hz
    have hs := scan_eq (go := fun x => x ≠ 0 && x ≠ q && x ≠ 0x0D && x ≠ 0x0A) (a := w) (r := q :: r) (junk := junk) (fun x hx => by
      have hx0 : x ≠ 0 := by rintro rfl; exact hz.1.1.2 hx
      have := hw x hx
      simp only [isNl, not_or] at this
      simp [hx0, this]) (by simp) (fun x hx => by simp at hx; subst hx; simp)
    have hql : lexQuote l q (w ++ (q :: r ++ 0 :: junk)) = some ({ l with text := lexText w, pos := r ++ 0 :: junk, prev := lexStr }, lexStr) := by
      unfold lexQuote
      rw [hs, Option.bind_some]
      dsimp only
      rw [List.cons_append]
      simp only [if_true]
    have e : q :: w ++ [q] ++ (r ++ 0 :: junk) = q :: (w ++ (q :: r ++ 0 :: junk)) := by simp
    rw [e]
    dsimp only
    rw [hql]
    rcases hq with rfl | rfl <;> simp [hg, lexText, lexMaxStr, Token.code, lexStr]
  | unmatched q hq w _ hw hr =>
    simp only [List.mem_append, List.mem_cons, not_or] at hz
    have hs := scan_eq (go := fun x => x ≠ 0 && x ≠ q && x ≠ 0x0D && x ≠ 0x0A) (a := w) (r := r) (junk := junk) (fun x hx => by
      have hx0 : x ≠ 0 := by rintro rfl; exact hz.1.2 hx
      have := hw x hx
      simp only [isNl, not_or] at this
      simp [hx0, this]) (by simp) (fun x hx => by
        have := hr x hx
        rcases this with rfl | rfl <;> simp)
    have hql : lexQuote l q (w ++ (r ++ 0 :: junk)) = some ({ l with text := [], pos := r ++ 0 :: junk, prev := lexErr }, lexErr) := by
      unfold lexQuote
      rw [hs, Option.bind_some]
      dsimp only
      cases r with
      | nil => simp only [List.nil_append]; rw [if_neg hz.1.1]
      | cons y r => simp only [List.cons_append]; rw [if_neg (isNl_ne_quote hq (hr y rfl))]
    rw [List.cons_append]
    dsimp only
    rw [hql]
    rcases hq with rfl | rfl <;> simp [hg, Token.code, lexErr]
  | keyword c w _ hc hw hr i k hi hkk =>
    have hs := ident c w hc hw hr hz
    obtain ⟨h1, h2, h3, h4, h5, h6, h7, h8, h9, h10, h11⟩ := hletter c hc
    have hlen := sameName_length hkk
    have hkl := hk.short k (List.mem_of_getElem? hi)
    have ht : lexText (c :: w) = c :: w := take_text (by omega)
    have hlk : lookupToken (c :: w) keys = some (lexTokOffset + i) := by
      rcases lookupToken_spec (c :: w) keys (by intro h; apply hz; simp only [List.mem_append]; exact Or.inl h) hk.nz hk.sorted with ⟨i', k', hi', hs', hlk⟩ | ⟨hn, _⟩
      · have hs2 : sameName k k' := Eq.trans (Eq.symm hkk) hs'
        have := key_unique hk hi hi' hs2
        subst this
        rw [hlk]
        simp [Int.add_comm]
      · exact absurd hkk (hn k (List.mem_of_getElem? hi))
    simp only [List.cons_append, h1, h2, h3, h4, h5, h6, h7, h8, h9, h10, h11, if_false, decide_false, Bool.or_self, Bool.false_eq_true, lexDefault, hs,
      (isAlphaU_iff c).2 hc, if_true, Option.bind_some, ht, hlk, Option.map_some]
    simp [hg, Token.code, lexTokOffset]
  | word c w _ hc hw hr hkk =>
    have hs := ident c w hc hw hr hz
    obtain ⟨h1, h2, h3, h4, h5, h6, h7, h8, h9, h10, h11⟩ := hletter c hc
    have hlk : lookupToken (lexText (c :: w)) keys = some lexStr := by
      rcases lookupToken_spec (lexText (c :: w)) keys (by intro h; apply hz; simp only [List.mem_append]; exact Or.inl (List.mem_of_mem_take h)) hk.nz hk.sorted with ⟨i', k', hi', hs', hlk⟩ | ⟨_, hlk⟩
      · have hlen := sameName_length hs'
        have hkl := hk.short k' (List.mem_of_getElem? hi')
        have ht : lexText (c :: w) = c :: w := by
          unfold lexText lexMaxStr at hlen ⊢
          rw [List.length_take] at hlen
          exact List.take_of_length_le (by omega)
        rw [ht] at hs'
        exact absurd hs' (hkk k' (List.mem_of_getElem? hi'))
      · exact hlk
    simp only [List.cons_append, h1, h2, h3, h4, h5, h6, h7, h8, h9, h10, h11, if_false, decide_false, Bool.or_self, Bool.false_eq_true, lexDefault, hs,
      (isAlphaU_iff c).2 hc, if_true, Option.bind_some, hlk, Option.map_some]
    simp [hg, Token.code, lexStr, lexText, lexMaxStr]
  | number _ _ h0 hw hr =>
    cases b with
    | nil => exact absurd rfl h0
    | cons c w =>
      have hc : digit c := hw c (by simp)
      have hs := numb w (fun x hx => hw x (by simp [hx])) hr (by simp only [List.cons_append, List.mem_cons, not_or] at hz; exact hz.2)
      obtain ⟨h1, h2, h3, h4, h5, h6, h7, h8, h9, h10, h11⟩ := hdigit c hc
      have hnl : ¬ (isAlpha c || decide (c = 0x5F)) = true := by
        intro g
        have := (isAlphaU_iff c).1 g
        revert hc this
        unfold digit letter
        simp only [UInt8.le_iff_toNat_le, ← UInt8.toNat_inj]
        simp
        omega
      simp only [List.cons_append, h1, h2, h3, h4, h5, h6, h7, h8, h9, h10, h11, if_false, decide_false, Bool.or_self, Bool.false_eq_true, lexDefault, hnl, lexNumber, hs,
        (isDigit_iff c).2 hc, if_true, Option.map_some]
      simp [hg, Token.code, lexInt, lexText, lexMaxStr]
  | signed c hsg w _ h0 hw hr =>
    have hs := numb w hw hr (by simp only [List.cons_append, List.mem_cons, not_or] at hz; exact hz.2)
    have hcase : lexDefault keys l c (w ++ (r ++ 0 :: junk)) = lexNumber l c (w ++ (r ++ 0 :: junk)) := by
      unfold lexDefault
      cases w with
      | nil => exact absurd rfl h0
      | cons d w =>
        have hd := (isDigit_iff d).2 (hw d (by simp))
        rcases hsg with rfl | rfl
        · rw [if_neg (by decide), if_neg (by decide), if_pos (by decide)]
          simp only [List.cons_append, hd, if_true]
        · rw [if_neg (by decide), if_neg (by decide), if_pos (by decide)]
          simp only [List.cons_append, hd, if_true]
    have hz2 : c ≠ 0 := by rcases hsg with rfl | rfl <;> decide
    rcases hsg with rfl | rfl
    all_goals
      simp only [List.cons_append, hcase, lexNumber, hs, Option.map_some]
      simp [hg, Token.code, lexInt, lexText, lexMaxStr]
  | chr c _ h hs hb =>
    simp only [not_or, isNl] at h
    obtain ⟨h2, h3, h4, h5, h6, ⟨h7, h8⟩, h9, h10, hl, hd⟩ := h
    have h1 : c ≠ 0 := by rintro rfl; simp at hz
    have hcase : lexDefault keys l c (r ++ 0 :: junk) = lexChar l c (r ++ 0 :: junk) := by
      unfold lexDefault
      rw [if_neg (fun g => hl ((isAlphaU_iff c).1 g)), if_neg (fun g => hd ((isDigit_iff c).1 g))]
      by_cases hsg : c = 0x2D ∨ c = 0x2B
      · rw [if_pos (by simpa using hsg)]
        cases r with
        | nil => simp only [List.nil_append]; rw [if_neg (by decide)]
        | cons x r => simp only [List.cons_append]; rw [if_neg (fun g => hs hsg x rfl ((isDigit_iff x).1 g))]
      · rw [if_neg (by simpa using hsg)]
    have fin : lexChar l c (r ++ 0 :: junk) = some ({ pos := r ++ 0 :: junk, text := [c], prev := (Token.chr c).code, line := l.line, gotEOL := decide (Token.chr c = .eol) }, (Token.chr c).code) := by
      simp [lexChar, hg, schar_code]
    rw [← fin, ← hcase]
    simp only [List.cons_append, List.nil_append, h1, h2, h3, h4, h5, h6, h7, h8, h9, h10, if_false, decide_false, Bool.or_self, Bool.false_eq_true]
    by_cases hbs : c = 0x5C
    · rw [if_pos hbs]
      obtain ⟨g1, g2⟩ := hb hbs
      cases r with
      | nil => simp
      | cons d r =>
        simp only [List.head?_cons, ne_eq, Option.some.injEq] at g1
        simp only [List.cons_append, g1, if_false]
        by_cases hd : d = 0x0D
        · rw [if_pos hd]
          cases r with
          | nil => simp
          | cons e r =>
            simp only [List.cons_append]
            rw [if_neg]
            rintro rfl
            exact g2 r (by rw [hd])
        · rw [if_neg hd]
    · rw [if_neg hbs]

theorem lexLoop_complete {keys : List (List UInt8)} (hk : KeysOk keys) (junk : List UInt8) {a c b r text : List UInt8} {t : Token}
    (ha : Skips a c) (hc : c = b ++ r) (ht : IsToken keys b r text t) : ∀ (l : Lex) (n : Nat), l.gotEOL = false → (0 : UInt8) ∉ a ++ c →
    l.pos = a ++ (c ++ 0 :: junk) → a.length < n →
    lexLoop keys n l = some ({ pos := r ++ 0 :: junk, text := text, prev := t.code, line := l.line + newlines a, gotEOL := decide (t = .eol) }, t.code) := by
  induction ha with
  | nil c =>
    subst hc
    intro l n hg hz hpos hn
    cases n with
    | zero => simp at hn
    | succ n =>
      rw [lexTok_complete hk junk ht l n hg hz (by rw [hpos]; simp)]
      simp [newlines]
  | blank x h a c h' ih =>
    intro l n hg hz hpos hn
    cases n with
    | zero => simp at hn
    | succ n =>
      simp only [List.cons_append, List.mem_cons, not_or] at hz
      simp only [List.length_cons] at hn
      have hnl : ¬ isNl x := by rcases h with rfl | rfl | rfl | rfl <;> decide
      have := ih hc { l with pos := a ++ (c ++ 0 :: junk) } n hg hz.2 rfl (by omega)
      rw [newlines_cons hnl, ← this, lexLoop, hpos, List.cons_append]
      have hx0 : x ≠ 0 := fun g => hz.1 g.symm
      rcases h with rfl | rfl | rfl | rfl <;> simp
  | comment w hw a c h h' ih =>
    intro l n hg hz hpos hn
    cases n with
    | zero => simp at hn
    | succ n =>
      simp only [List.cons_append, List.append_assoc, List.mem_cons, List.mem_append, not_or] at hz
      simp only [List.cons_append, List.length_cons, List.length_append] at hn
      have := ih hc { l with pos := a ++ (c ++ 0 :: junk) } n hg (by simp only [List.mem_append, not_or]; exact hz.2.2) rfl (by omega)
      rw [List.cons_append, newlines_cons (by decide), newlines_skip hw, ← this, lexLoop, hpos]
      have hs := scan_eq (go := fun x => x ≠ 0 && x ≠ 0x0A && x ≠ 0x0D) (a := w) (r := a ++ c) (junk := junk) (fun x hx => by
        have hx0 : x ≠ 0 := by rintro rfl; exact hz.2.1 hx
        have := hw x hx
        simp only [isNl, not_or] at this
        simp [hx0, this]) (by simp) (fun x hx => by
          rcases h x hx with rfl | rfl <;> simp)
      rw [List.append_assoc] at hs
      simp only [List.cons_append, List.append_assoc]
      rw [hs]
      simp
  | continued nl h a c h' ih =>
    intro l n hg hz hpos hn
    cases n with
    | zero => simp at hn
    | succ n =>
      simp only [List.cons_append, List.append_assoc, List.mem_cons, List.mem_append, not_or] at hz
      simp only [List.cons_append, List.length_cons, List.length_append] at hn
      have := ih hc { l with pos := a ++ (c ++ 0 :: junk), line := l.line + 1 } n hg (by simp only [List.mem_append, not_or]; exact hz.2.2) rfl (by omega)
      rw [List.cons_append, newlines_cons (by decide)]
      rcases h with rfl | rfl
      · rw [List.singleton_append, newlines_lf, ← Nat.add_assoc, ← this, lexLoop, hpos]
        simp
      · rw [List.cons_append, List.singleton_append, newlines_crlf, ← Nat.add_assoc, ← this, lexLoop, hpos]
        simp

end Conman
