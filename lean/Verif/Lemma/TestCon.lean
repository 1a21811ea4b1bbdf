import Verif.Model.TestCon

namespace Conman
open Spec (patternByte Gap Bursts)

/-- The last character after `i` bytes. -/
def lastAfter (i : Nat) : UInt8 := UInt8.ofNat (0x20 + i % 94)

theorem lastAfter_next (i : Nat) : lastAfter i + 1 = patternByte i ∧ (if lastAfter i + 1 = 0x7E then 0x20 else lastAfter i + 1) = lastAfter (i + 1) := by
  have key : ∀ k : Fin 94, UInt8.ofNat (0x20 + k.1) + 1 = UInt8.ofNat (0x21 + k.1) ∧
      (if UInt8.ofNat (0x20 + k.1) + 1 = 0x7E then 0x20 else UInt8.ofNat (0x20 + k.1) + 1) = UInt8.ofNat (0x20 + (k.1 + 1) % 94) := by decide +kernel
  have := key ⟨i % 94, Nat.mod_lt _ (by omega)⟩
  unfold lastAfter patternByte
  rw [show (i + 1) % 94 = (i % 94 + 1) % 94 by omega]
  exact this

theorem testFill_spec : ∀ n i, testFill n (lastAfter i) = ((List.range n).map (fun j => patternByte (i + j)), lastAfter (i + n))
  | 0, i => by simp [testFill]
  | n + 1, i => by
    obtain ⟨h1, h2⟩ := lastAfter_next i
    rw [testFill]
    rw [h2, h1, testFill_spec n (i + 1), List.range_succ_eq_map, List.map_cons, List.map_map]
    simp only [Nat.add_zero, Prod.mk.injEq, List.cons.injEq, true_and]
    refine ⟨List.map_congr_left fun j _ => ?_, by congr 1; omega⟩
    simp only [Function.comp]; congr 1; omega

theorem testFill_length (n : Nat) (c : UInt8) : (testFill n c).1.length = n := by
  induction n generalizing c with
  | zero => rfl
  | succ n ih => rw [testFill]; dsimp only; rw [List.length_cons, ih]

/-- What one call does. -/
theorem readTest_cases {t : TestCon} {r1 r2 : Nat} {t' : TestCon} {b : List UInt8} {d : Int} (h : readTest t r1 r2 = some (t', b, d)) (h0 : 0 ≤ t.numLeft)
    (hb : 0 ≤ t.opts.numBytes) : t'.opts = t.opts ∧ testDelay t' r2 = some d ∧
    ((t.numLeft = 0 ∧ t.opts.probability < 100 ∧ t' = t ∧ b = []) ∨
     ((t.numLeft > 0 ∨ 0 < t.opts.probability) ∧ ∃ left n : Int, left = (if t.numLeft = 0 then t.opts.numBytes else t.numLeft) ∧ n = (if left < 8191 then left else 8191) ∧
       t'.numLeft = left - n ∧ (b.length : Int) = n ∧ b = (testFill n.toNat t.lastChar).1 ∧ t'.lastChar = (testFill n.toNat t.lastChar).2)) := by
  unfold readTest at h
  dsimp only at h
  rw [Option.map_eq_some_iff] at h
  obtain ⟨d', hd, h⟩ := h
  by_cases hc : t.numLeft > 0 ∨ t.opts.probability > (r1 : Int) % 100
  · simp only [if_pos hc, Prod.mk.injEq] at h hd
    obtain ⟨rfl, rfl, rfl⟩ := h
    refine ⟨rfl, hd, Or.inr ⟨?_, _, _, rfl, rfl, rfl, ?_, rfl, rfl⟩⟩
    · have : (0 : Int) ≤ (r1 : Int) % 100 := Int.emod_nonneg _ (by omega)
      omega
    · rw [testFill_length]
      split <;> omega
  · simp only [if_neg hc, Prod.mk.injEq] at h hd
    obtain ⟨rfl, rfl, rfl⟩ := h
    have : (r1 : Int) % 100 < 100 := Int.emod_lt_of_pos _ (by omega)
    exact ⟨rfl, hd, Or.inl ⟨by omega, by omega, rfl, rfl⟩⟩

theorem testDelay_gap {t : TestCon} {r2 : Nat} {d : Int} (h : testDelay t r2 = some d) : (t.numLeft > 0 → d = 0) ∧ (¬ t.numLeft > 0 → Gap t.opts d) := by
  unfold testDelay at h
  constructor
  · intro h1; rw [if_pos h1] at h; simpa using h.symm
  · intro h1
    rw [if_neg h1] at h
    unfold Gap
    split at h
    · rename_i h2; rw [if_pos h2]; simpa using h.symm
    · rename_i h2
      rw [if_neg h2]
      split at h
      · rename_i h3; rw [if_pos h3]; simpa using h.symm
      · rename_i h3
        rw [if_neg h3]
        split at h
        · simp at h
        · simp only [Option.some.injEq] at h
          rw [← h]
          have p1 := Int.emod_nonneg (r2 : Int) (b := t.opts.msecMax - t.opts.msecMin + 1) (by omega)
          have p2 := Int.emod_lt_of_pos (r2 : Int) (b := t.opts.msecMax - t.opts.msecMin + 1) (by omega)
          constructor <;> omega

/-- The rest of a burst of which `left` bytes are missing. -/
def Rest (o : TestOpt) (left : Int) (l : List (List UInt8 × Int)) : Prop :=
  (∃ cs : List (List UInt8), l = cs.map (·, (0 : Int)) ∧ (∀ c ∈ cs, c.length = 8191) ∧ (8191 * cs.length : Int) < left) ∨
  (∃ (cs : List (List UInt8)) (last : List UInt8) (d : Int) (rest : List (List UInt8 × Int)), l = cs.map (·, (0 : Int)) ++ (last, d) :: rest ∧ (∀ c ∈ cs, c.length = 8191) ∧ last.length ≤ 8191 ∧ last ≠ [] ∧
    (8191 * cs.length + last.length : Int) = left ∧ Gap o d ∧ Bursts o rest)

theorem testRun_bursts : ∀ (rs : List (Nat × Nat)) (t : TestCon) (l : List (List UInt8 × Int)), testRun t rs = some l → 0 ≤ t.numLeft → 0 ≤ t.opts.numBytes →
    (t.numLeft = 0 → Bursts t.opts l) ∧ (0 < t.numLeft → Rest t.opts t.numLeft l)
  | [], t, l, h, _, _ => by
    rw [testRun, Option.some.injEq] at h
    subst h
    exact ⟨fun _ => Bursts.nil, fun h => Or.inl ⟨[], rfl, by simp, by simpa using h⟩⟩
  | r :: rs, t, l, h, h0, hb => by
    rw [testRun, Option.bind_eq_some_iff] at h
    obtain ⟨⟨t', b, d⟩, hr, h⟩ := h
    rw [Option.map_eq_some_iff] at h
    obtain ⟨l', hl', rfl⟩ := h
    dsimp only at hl' ⊢
    obtain ⟨e, hd, hc⟩ := readTest_cases hr h0 hb
    obtain ⟨g1, g2⟩ := testDelay_gap hd
    rcases hc with ⟨hz, hp, rfl, rfl⟩ | ⟨hp, left, n, el, en, e1, e2, _, _⟩
    · obtain ⟨i1, _⟩ := testRun_bursts rs t' l' hl' h0 hb
      exact ⟨fun _ => Bursts.quiet d l' hp (g2 (by omega)) (i1 hz), fun h => by omega⟩
    · have hl0 : 0 ≤ left := by rw [el]; split <;> omega
      have hn0 : n ≤ left ∧ n ≤ 8191 ∧ 0 ≤ n := by rw [en]; split <;> omega
      have hn1 : n = left ∨ n = 8191 := by rw [en]; split <;> omega
      obtain ⟨i1, i2⟩ := testRun_bursts rs t' l' hl' (by omega) (by rw [e]; exact hb)
      rw [e] at i1 i2 g2
      -- this read and the rest make up `left` bytes
      have whole : (left = 0 ∧ b = [] ∧ Gap t.opts d ∧ Bursts t.opts l') ∨ (0 < left ∧ Rest t.opts left ((b, d) :: l')) := by
        by_cases hz : t'.numLeft = 0
        · have hbl := i1 hz
          have hg := g2 (by omega)
          by_cases hl : left = 0
          · exact Or.inl ⟨hl, List.length_eq_zero_iff.1 (by omega), hg, hbl⟩
          · refine Or.inr ⟨by omega, Or.inr ⟨[], b, d, l', rfl, by simp, by omega, ?_, by simp; omega, hg, hbl⟩⟩
            intro hbn; rw [hbn] at e2; simp at e2; omega
        · have hd0 := g1 (by omega)
          subst hd0
          have hlen : b.length = 8191 := by omega
          refine Or.inr ⟨by omega, ?_⟩
          rcases i2 (by omega) with ⟨cs, rfl, hc, hlt⟩ | ⟨cs, last, d, rest, rfl, hc, hla, hne, htot, hg, hrest⟩
          · refine Or.inl ⟨b :: cs, rfl, ?_, by simp only [List.length_cons]; omega⟩
            intro c hcm
            rcases List.mem_cons.1 hcm with rfl | hcm
            · exact hlen
            · exact hc c hcm
          · refine Or.inr ⟨b :: cs, last, d, rest, rfl, ?_, hla, hne, by simp only [List.length_cons]; omega, hg, hrest⟩
            intro c hcm
            rcases List.mem_cons.1 hcm with rfl | hcm
            · exact hlen
            · exact hc c hcm
      constructor
      · intro hz
        rw [if_pos hz] at el
        have hp' : 0 < t.opts.probability := by omega
        rcases whole with ⟨w1, rfl, w3, w4⟩ | ⟨w1, w2⟩
        · have := Bursts.burst (o := t.opts) [] [] d l' hp' (by simp) (by simp) (Or.inr rfl) (by simp; omega) w3 w4
          simpa using this
        · rcases w2 with ⟨cs, e, hc, hlt⟩ | ⟨cs, last, d, rest, e, hc, hla, hne, htot, hg, hrest⟩
          · rw [e]; exact Bursts.unfinished cs hp' hc (by omega)
          · rw [e]; exact Bursts.burst cs last d rest hp' hc hla (Or.inl hne) (by omega) hg hrest
      · intro hz
        rw [if_neg (by omega)] at el
        rcases whole with ⟨w1, _⟩ | ⟨w1, w2⟩
        · omega
        · rw [← el]; exact w2

theorem testRun_pattern : ∀ (rs : List (Nat × Nat)) (t : TestCon) (l : List (List UInt8 × Int)) (i : Nat), testRun t rs = some l → 0 ≤ t.numLeft →
    0 ≤ t.opts.numBytes → t.lastChar = lastAfter i →
    (l.map (·.1)).flatten = (List.range (l.map (·.1)).flatten.length).map (fun j => patternByte (i + j))
  | [], t, l, i, h, _, _, _ => by
    rw [testRun, Option.some.injEq] at h
    subst h; rfl
  | r :: rs, t, l, i, h, h0, hb, hi => by
    rw [testRun, Option.bind_eq_some_iff] at h
    obtain ⟨⟨t', b, d⟩, hr, h⟩ := h
    rw [Option.map_eq_some_iff] at h
    obtain ⟨l', hl', rfl⟩ := h
    dsimp only at hl' ⊢
    obtain ⟨e, hd, hc⟩ := readTest_cases hr h0 hb
    rcases hc with ⟨hz, hp, rfl, rfl⟩ | ⟨hp, left, n, el, en, e1, e2, e3, e4⟩
    · simpa using testRun_pattern rs t' l' i hl' h0 hb hi
    · have hl0 : 0 ≤ left := by rw [el]; split <;> omega
      have hn0 : n ≤ left := by rw [en]; split <;> omega
      rw [hi, testFill_spec] at e3 e4
      dsimp only at e3 e4
      have ih := testRun_pattern rs t' l' (i + n.toNat) hl' (by omega) (by rw [e]; exact hb) e4
      have hlen : b.length = n.toNat := by omega
      simp only [List.map_cons, List.flatten_cons, List.length_append]
      rw [ih, List.length_map, List.length_range, List.range_add, List.map_append, List.map_map, hlen, e3]
      congr 1
      refine List.map_congr_left fun j _ => ?_
      simp only [Function.comp]; congr 1; omega

theorem testDelay_some {t : TestCon} {r2 : Nat} (h : ¬ (0 ≤ t.opts.msecMin ∧ t.opts.msecMax - t.opts.msecMin + 1 > 2147483647)) : (testDelay t r2).isSome := by
  unfold testDelay
  split
  · rfl
  split
  · rfl
  split
  · rfl
  split
  · exfalso; omega
  · rfl

theorem testRun_some : ∀ (rs : List (Nat × Nat)) (t : TestCon), ¬ (0 ≤ t.opts.msecMin ∧ t.opts.msecMax - t.opts.msecMin + 1 > 2147483647) → (testRun t rs).isSome
  | [], _, _ => rfl
  | r :: rs, t, h => by
    rw [testRun]
    unfold readTest
    dsimp only
    generalize hp : (if t.numLeft > 0 ∨ t.opts.probability > (r.1 : Int) % 100 then _ else _ : TestCon × List UInt8) = p
    have he : p.1.opts = t.opts := by rw [← hp]; split <;> rfl
    have hd := testDelay_some (t := p.1) (r2 := r.2) (by rw [he]; exact h)
    rw [Option.isSome_iff_exists] at hd
    obtain ⟨d, hd⟩ := hd
    rw [hd, Option.map_some, Option.bind_some, Option.isSome_map]
    exact testRun_some rs p.1 (by rw [he]; exact h)

end Conman
