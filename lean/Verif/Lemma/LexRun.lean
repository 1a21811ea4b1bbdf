import Verif.Lemma.Lex

/-
Whole token streams and line numbers.
-/
namespace Conman
open Spec

theorem newlines_append : ∀ (x y : List UInt8), (x.getLast? = some 0x0D → y.head? ≠ some 0x0A) → newlines (x ++ y) = newlines x + newlines y := by
  intro x
  induction x using newlines.induct with
  | case1 => intro y _; simp [newlines]
  | case2 c hc =>
    intro y h
    rcases hc with rfl | rfl
    · rw [List.singleton_append, newlines_cr (h rfl)]; rfl
    · rw [List.singleton_append, newlines_lf]; rfl
  | case3 c hc =>
    intro y h
    rw [List.singleton_append, newlines_cons hc]
    simp [newlines, hc]
  | case4 c d r hcd ih =>
    intro y h
    obtain ⟨rfl, rfl⟩ := hcd
    have hl : r.getLast? = some 0x0D → y.head? ≠ some 0x0A := by
      intro g
      apply h
      cases r with
      | nil => simp at g
      | cons a r => rw [List.getLast?_cons_cons, List.getLast?_cons_cons]; exact g
    rw [List.cons_append, List.cons_append, newlines_crlf, newlines_crlf, ih y hl, Nat.add_assoc]
  | case5 c d r hcd ih =>
    intro y h
    have := ih y (by rw [List.getLast?_cons_cons] at h; exact h)
    rw [List.cons_append] at this ⊢
    rw [List.cons_append, newlines, if_neg hcd, this]
    conv => rhs; rw [newlines, if_neg hcd]
    omega

/-- A cut between two texts does not separate CR from LF. -/
def Seam (x y : List UInt8) : Prop := x.getLast? = some 0x0D → y.head? ≠ some 0x0A

theorem Seam.append {x a y : List UInt8} (h : Seam x (a ++ y)) (ha : a ≠ [] → Seam a y) : Seam (x ++ a) y := by
  cases a with
  | nil => simpa using h
  | cons c a =>
    intro g
    apply ha (by simp)
    rw [List.getLast?_append] at g
    simpa using g

theorem seam_no {a y : List UInt8} (h : ∀ c ∈ a, ¬ isNl c) : Seam a y := by
  intro g
  exact absurd (Or.inl rfl) (h _ (List.mem_of_getLast? g))

theorem Spec.Skips.seam {a b : List UInt8} (h : Skips a b) : a ≠ [] → Seam a b := by
  induction h with
  | nil b => intro g; exact absurd rfl g
  | blank c h a b h' ih =>
    intro _
    have hnl : ¬ isNl c := by rcases h with rfl | rfl | rfl | rfl <;> decide
    exact Seam.append (x := [c]) (seam_no (by simpa using hnl)) ih
  | comment w hw a b h h' ih =>
    intro _
    refine Seam.append (x := 0x23 :: w) (seam_no ?_) ih
    intro c hc
    rcases List.mem_cons.1 hc with rfl | hc
    · decide
    · exact hw c hc
  | continued nl h a b h' ih =>
    intro _
    refine Seam.append (x := 0x5C :: nl) ?_ ih
    rcases h with rfl | rfl <;> (intro g; simp at g)

theorem Spec.IsToken.nlEnd {keys : List (List UInt8)} {b r text : List UInt8} {t : Token} (h : IsToken keys b r text t) :
    newlines b = (if t = .eol then 1 else 0) ∧ (b ≠ [] → Seam b r) ∧ (b = [] ↔ t = .eof) ∧ text.length ≤ 1023 ∨
      (∃ c w k, letter c ∧ (∀ x ∈ w, letter x ∨ digit x) ∧ k ∈ keys ∧ sameName (c :: w) k ∧ b = c :: w ∧ text = c :: w ∧ (∃ i, t = .key i)) := by
  have hld : ∀ x, letter x ∨ digit x → ¬ isNl x := by
    rintro x hx (rfl | rfl) <;> (revert hx; decide)
  have no : ∀ w : List UInt8, (∀ c ∈ w, ¬ isNl c) → newlines w = 0 := by
    intro w hw
    have := newlines_skip hw []
    rwa [List.append_nil] at this
  cases h with
  | eof => left; simp [newlines]
  | lf => left; simp [newlines, Seam]
  | crlf => left; simp [newlines, Seam]
  | cr _ h => left; simp [newlines, Seam, h]
  | quoted q hq w _ hw =>
    left
    have hn : ∀ c ∈ q :: w ++ [q], ¬ isNl c := by
      intro c hc
      simp only [List.cons_append, List.mem_cons, List.mem_append, List.not_mem_nil, or_false] at hc
      rcases hc with rfl | hc | rfl
      · rcases hq with rfl | rfl <;> decide
      · exact (hw c hc).2
      · rcases hq with rfl | rfl <;> decide
    refine ⟨by rw [no _ hn]; rfl, fun _ => seam_no hn, by simp, by simp; omega⟩
  | unmatched q hq w _ hw =>
    left
    have hn : ∀ c ∈ q :: w, ¬ isNl c := by
      intro c hc
      simp only [List.mem_cons] at hc
      rcases hc with rfl | hc
      · rcases hq with rfl | rfl <;> decide
      · exact (hw c hc).2
    refine ⟨by rw [no _ hn]; rfl, fun _ => seam_no hn, by simp, by simp⟩
  | keyword c w _ hc hw hr i k hi hk =>
    right
    exact ⟨c, w, k, hc, hw, List.mem_of_getElem? hi, hk, rfl, rfl, i, rfl⟩
  | word c w _ hc hw =>
    left
    have hn : ∀ x ∈ c :: w, ¬ isNl x := by
      intro x hx
      rcases List.mem_cons.1 hx with rfl | hx
      · exact hld _ (Or.inl hc)
      · exact hld _ (hw x hx)
    exact ⟨by rw [no _ hn]; rfl, fun _ => seam_no hn, by simp, by simp; omega⟩
  | number _ _ h0 hw =>
    left
    have hn : ∀ x ∈ b, ¬ isNl x := fun x hx => hld _ (Or.inr (hw x hx))
    exact ⟨by rw [no _ hn]; rfl, fun _ => seam_no hn, by simp [h0], by simp; omega⟩
  | signed s hs w _ h0 hw =>
    left
    have hn : ∀ x ∈ s :: w, ¬ isNl x := by
      intro x hx
      rcases List.mem_cons.1 hx with rfl | hx
      · rcases hs with rfl | rfl <;> decide
      · exact hld _ (Or.inr (hw x hx))
    exact ⟨by rw [no _ hn]; rfl, fun _ => seam_no hn, by simp, by simp; omega⟩
  | chr c _ h =>
    left
    simp only [not_or] at h
    have hn : ∀ x ∈ [c], ¬ isNl x := by simpa using h.2.2.2.2.2.1
    exact ⟨by rw [no _ hn]; rfl, fun _ => seam_no hn, by simp, by simp⟩

theorem Spec.IsToken.facts {keys : List (List UInt8)} (hk : KeysOk keys) {b r text : List UInt8} {t : Token} (h : IsToken keys b r text t) :
    newlines b = (if t = .eol then 1 else 0) ∧ (b ≠ [] → Seam b r) ∧ (b = [] ↔ t = .eof) ∧ text.length ≤ 1023 := by
  have hld : ∀ x, letter x ∨ digit x → ¬ isNl x := by
    rintro x hx (rfl | rfl) <;> (revert hx; decide)
  rcases h.nlEnd with h | ⟨c, w, k, hc, hw, hm, hs, rfl, rfl, i, rfl⟩
  · exact h
  · have hn : ∀ x ∈ c :: w, ¬ isNl x := by
      intro x hx
      rcases List.mem_cons.1 hx with rfl | hx
      · exact hld _ (Or.inl hc)
      · exact hld _ (hw x hx)
    refine ⟨?_, fun _ => seam_no hn, by simp, ?_⟩
    · have := newlines_skip hn []
      rw [List.append_nil] at this
      rw [this]; rfl
    · have := sameName_length hs
      have := hk.short k hm
      omega

theorem code_eof {t : Token} (h : t.code = 0) (hc : t ≠ .chr 0) : t = .eof := by
  cases t with
  | eof => rfl
  | eol => simp [Token.code] at h
  | err => simp [Token.code] at h
  | int => simp [Token.code] at h
  | str => simp [Token.code] at h
  | key i => simp only [Token.code] at h; omega
  | chr c =>
    exfalso
    simp only [Token.code] at h
    have hlt := c.toNat_lt
    have : c.toNat = 0 := by
      by_cases g : c.toNat < 128
      · rw [if_pos g] at h; omega
      · rw [if_neg g] at h; omega
    apply hc
    have : c = 0 := UInt8.toNat_inj.1 this
    rw [this]

/-- One call of `lex_next`. -/
theorem lexNext_spec {keys : List (List UInt8)} (hk : KeysOk keys) (junk : List UInt8) (l : Lex) (s : List UInt8)
    (hpos : l.pos = s ++ 0 :: junk) (hz : (0 : UInt8) ∉ s) :
    ∃ a b r text t, s = a ++ (b ++ r) ∧ Skips a (b ++ r) ∧ IsToken keys b r text t ∧
      lexNext keys l = some ({ pos := r ++ 0 :: junk, text := text, prev := t.code, line := (l.line + if l.gotEOL then 1 else 0) + newlines a, gotEOL := decide (t = .eol) }, t.code) := by
  unfold lexNext
  cases hg : l.gotEOL with
  | true =>
    simp only [if_true]
    exact lexLoop_spec hk junk _ { l with line := l.line + 1, gotEOL := false } s rfl hpos hz (by rw [hpos]; simp; omega)
  | false =>
    simp only [Bool.false_eq_true, if_false, Nat.add_zero]
    exact lexLoop_spec hk junk _ l s hg hpos hz (by rw [hpos]; simp; omega)

/-- Conversely the grammar determines what `lex_next` does. -/
theorem lexNext_complete {keys : List (List UInt8)} (hk : KeysOk keys) (junk : List UInt8) {a b r text : List UInt8} {t : Token} (l : Lex)
    (hpos : l.pos = a ++ b ++ r ++ 0 :: junk) (ha : Skips a (b ++ r)) (ht : IsToken keys b r text t) (hz : (0 : UInt8) ∉ a ++ b ++ r) :
    lexNext keys l = some ({ pos := r ++ 0 :: junk, text := text, prev := t.code, line := (l.line + if l.gotEOL then 1 else 0) + newlines a, gotEOL := decide (t = .eol) }, t.code) := by
  have hz' : (0 : UInt8) ∉ a ++ (b ++ r) := by simpa [List.append_assoc] using hz
  have hp : l.pos = a ++ ((b ++ r) ++ 0 :: junk) := by rw [hpos]; simp [List.append_assoc]
  unfold lexNext
  cases hg : l.gotEOL with
  | true =>
    simp only [if_true]
    exact lexLoop_complete hk junk ha rfl ht { l with line := l.line + 1, gotEOL := false } _ rfl hz' hp (by rw [hp]; simp; omega)
  | false =>
    simp only [Bool.false_eq_true, if_false, Nat.add_zero]
    exact lexLoop_complete hk junk ha rfl ht l _ hg hz' hp (by rw [hp]; simp; omega)

def entry (x : Token × List UInt8 × Nat) : Int × List UInt8 × Nat := (x.1.code, x.2.1, x.2.2)

theorem lexAll_spec {keys : List (List UInt8)} (hk : KeysOk keys) (junk : List UInt8) : ∀ (n : Nat) (l : Lex) (before s : List UInt8),
    s.length < n → l.pos = s ++ 0 :: junk → (0 : UInt8) ∉ s → (l.line + if l.gotEOL then 1 else 0) = 1 + newlines before → Seam before s →
    ∃ ts, Lexes keys before s ts ∧ lexAll keys n l = some (ts.map entry) ∧ ts.length ≤ s.length + 1 := by
  intro n
  induction n with
  | zero => intro l before s h; omega
  | succ n ih =>
    intro l before s hn hpos hz hline hseam
    obtain ⟨a, b, r, text, t, e, ha, hb, hres⟩ := lexNext_spec hk junk l s hpos hz
    have hf := hb.facts hk
    rw [hline] at hres
    have hs1 : Seam before (a ++ (b ++ r)) := by rw [← e]; exact hseam
    have hs2 : Seam (before ++ a) (b ++ r) := hs1.append ha.seam
    have hs3 : Seam (before ++ a ++ b) r := hs2.append hf.2.1
    have hna : newlines (before ++ a) = newlines before + newlines a := by
      by_cases g : a = []
      · subst g; simp [newlines]
      · refine newlines_append _ _ (fun h1 h2 => hseam h1 ?_)
        rw [e, List.head?_append, h2]; rfl
    have hnb : newlines (before ++ a ++ b) = newlines (before ++ a) + newlines b := by
      by_cases g : b = []
      · subst g; simp [newlines]
      · refine newlines_append _ _ (fun h1 h2 => hs2 h1 ?_)
        rw [List.head?_append, h2]; rfl
    unfold lexAll
    rw [hres]
    by_cases h0 : b = []
    · have ht := hf.2.2.1.1 h0
      subst ht h0
      cases hb
      refine ⟨[(.eof, [], 1 + newlines (before ++ a))], ?_, ?_, by simp⟩
      · rw [e]
        simp only [List.append_nil]
        exact .done before a (by simpa using ha)
      · simp [Token.code, lexEof, entry, hna, Nat.add_assoc]
    · have hte : t ≠ .eof := fun g => h0 (hf.2.2.1.2 g)
      have hcode : ¬ t.code = lexEof := by
        intro g
        refine hte (code_eof g ?_)
        rintro rfl
        cases hb
        apply hz; rw [e]; simp
      have hbl : 0 < b.length := List.length_pos_iff.2 h0
      have hlen : s.length = a.length + (b.length + r.length) := by rw [e]; simp
      obtain ⟨ts, g1, g2, g3⟩ := ih { pos := r ++ 0 :: junk, text := text, prev := t.code, line := 1 + newlines before + newlines a, gotEOL := decide (t = .eol) }
        (before ++ a ++ b) r (by omega) rfl (by rw [e] at hz; simp at hz; exact hz.2.2) (by
          simp only [decide_eq_true_eq]
          rw [hnb, hna, hf.1]
          omega) hs3
      refine ⟨(t, text, 1 + newlines (before ++ a)) :: ts, ?_, ?_, by simp; omega⟩
      · rw [e, ← List.append_assoc]
        exact .step before a b r text t ts ha hb h0 g1
      · dsimp only
        rw [if_neg hcode, g2]
        simp [entry, hna, Nat.add_assoc]

/-- Whatever way a text is read by the grammar is what the calls return. -/
theorem lexAll_complete {keys : List (List UInt8)} (hk : KeysOk keys) (junk : List UInt8) {before s : List UInt8} {ts : List (Token × List UInt8 × Nat)} (h : Lexes keys before s ts) :
    ∀ (n : Nat) (l : Lex), s.length < n → l.pos = s ++ 0 :: junk → (0 : UInt8) ∉ s → (l.line + if l.gotEOL then 1 else 0) = 1 + newlines before → Seam before s →
      lexAll keys n l = some (ts.map entry) := by
  induction h with
  | done before a ha =>
    intro n l hn hpos hz hline hseam
    obtain ⟨n, rfl⟩ : ∃ m, n = m + 1 := ⟨n - 1, by omega⟩
    have hres := lexNext_complete hk junk l (a := a) (b := []) (r := []) (by simpa using hpos) (by simpa using ha) .eof (by simpa using hz)
    have hna : newlines (before ++ a) = newlines before + newlines a := newlines_append _ _ hseam
    unfold lexAll
    rw [hres, hline]
    simp [Token.code, lexEof, entry, hna, Nat.add_assoc]
  | step before a b r text t ts ha hb h0 hr ih =>
    intro n l hn hpos hz hline hseam
    obtain ⟨n, rfl⟩ : ∃ m, n = m + 1 := ⟨n - 1, by omega⟩
    have hres := lexNext_complete hk junk l (a := a) (b := b) (r := r) (by simpa using hpos) ha hb hz
    have hf := hb.facts hk
    have hs1 : Seam before (a ++ (b ++ r)) := by rw [← List.append_assoc]; exact hseam
    have hs2 : Seam (before ++ a) (b ++ r) := hs1.append ha.seam
    have hs3 : Seam (before ++ a ++ b) r := hs2.append hf.2.1
    have hna : newlines (before ++ a) = newlines before + newlines a := by
      by_cases g : a = []
      · subst g; simp [newlines]
      · refine newlines_append _ _ (fun h1 h2 => hs1 h1 ?_)
        rw [List.head?_append, h2]; rfl
    have hnb : newlines (before ++ a ++ b) = newlines (before ++ a) + newlines b := by
      refine newlines_append _ _ (fun h1 h2 => hs2 h1 ?_)
      rw [List.head?_append, h2]; rfl
    have hte : t ≠ .eof := fun g => h0 (hf.2.2.1.2 g)
    have hcode : ¬ t.code = lexEof := by
      intro g
      refine hte (code_eof g ?_)
      rintro rfl
      cases hb
      apply hz; simp
    have hbl : 0 < b.length := List.length_pos_iff.2 h0
    have hlen : (a ++ b ++ r).length = a.length + b.length + r.length := by simp [Nat.add_assoc]
    unfold lexAll
    rw [hres, hline]
    dsimp only
    rw [if_neg hcode, ih n _ (by omega) rfl (by simp at hz; exact hz.2.2) (by
      simp only [decide_eq_true_eq]
      rw [hnb, hna, hf.1]
      omega) hs3]
    simp [entry, hna, Nat.add_assoc]

end Conman
