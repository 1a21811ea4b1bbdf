import Verif.Model.HostEnt
import Verif.Lemma.CStr

/-
Memory accesses of src/util-net.c.
-/
namespace Conman

open Spec

theorem leBytes_length (k v : Nat) : (leBytes k v).length = k := by
  induction k generalizing v with
  | zero => rfl
  | succ k ih => simp [leBytes, ih]

theorem leVal_leBytes (k v : Nat) (h : v < 256 ^ k) : leVal (leBytes k v) = v := by
  induction k generalizing v with
  | zero => simp at h; subst h; rfl
  | succ k ih =>
    rw [Nat.pow_succ] at h
    rw [leBytes, leVal, ih _ (Nat.div_lt_of_lt_mul (by rw [Nat.mul_comm]; exact h))]
    have : (UInt8.ofNat (v % 256)).toNat = v % 256 := by
      rw [UInt8.toNat_ofNat']
      omega
    rw [this]; omega

theorem over_get {m : List UInt8} {i : Nat} {s : List UInt8} (h : i + s.length ≤ m.length) (k : Nat) :
    (over m i s)[k]? = if k < i then m[k]? else if k < i + s.length then s[k - i]? else m[k]? := by
  unfold over
  have hl : (m.take i).length = i := by rw [List.length_take]; omega
  by_cases h1 : k < i
  · rw [if_pos h1, List.append_assoc, List.getElem?_append_left (by omega), List.getElem?_take_of_lt h1]
  · rw [if_neg h1, List.append_assoc, List.getElem?_append_right (by omega), hl]
    by_cases h2 : k < i + s.length
    · rw [if_pos h2, List.getElem?_append_left (by omega)]
    · rw [if_neg h2, List.getElem?_append_right (by omega), List.getElem?_drop]
      congr 1; omega

theorem hasAt_over {m : List UInt8} {i : Nat} {s : List UInt8} (h : i + s.length ≤ m.length) : HasAt (over m i s) i s := by
  intro k hk
  rw [over_get h, if_neg (by omega), if_pos (by omega), Nat.add_sub_cancel_left, List.getElem?_eq_getElem hk]

theorem pokes_spec {m : List UInt8} {i : Nat} {s : List UInt8} (h : i + s.length ≤ m.length) :
    ∃ m', pokes m i s = some m' ∧ m'.length = m.length ∧ HasAt m' i s ∧ ∀ k, k < i ∨ i + s.length ≤ k → m'[k]? = m[k]? := by
  refine ⟨_, pokes_eq s h, over_length h, hasAt_over h, ?_⟩
  intro k hk
  rw [over_get h]
  rcases hk with hk | hk
  · rw [if_pos hk]
  · rw [if_neg (by omega), if_neg (by omega)]

theorem leNum_spec {m : List UInt8} {i k v : Nat} (h : i + k ≤ m.length) (hv : v < 256 ^ k) :
    ∃ m', pokes m i (leBytes k v) = some m' ∧ m'.length = m.length ∧ NumAt k m' i v ∧ ∀ j, j < i ∨ i + k ≤ j → m'[j]? = m[j]? := by
  obtain ⟨m', h1, h2, h3, h4⟩ := pokes_spec (s := leBytes k v) (m := m) (i := i) (by rw [leBytes_length]; exact h)
  rw [leBytes_length] at h4
  exact ⟨m', h1, h2, ⟨_, leBytes_length k v, h3, leVal_leBytes k v hv⟩, h4⟩

theorem HasAt.keep {m m' : List UInt8} {i : Nat} {s : List UInt8} (h : HasAt m i s) (hk : ∀ k, i ≤ k → k < i + s.length → m'[k]? = m[k]?) : HasAt m' i s := by
  intro k hk'
  rw [hk (i + k) (by omega) (by omega)]
  exact h k hk'

theorem NumAt.keep {m m' : List UInt8} {n i v : Nat} (h : NumAt n m i v) (hk : ∀ k, i ≤ k → k < i + n → m'[k]? = m[k]?) : NumAt n m' i v := by
  obtain ⟨s, h1, h2, h3⟩ := h
  exact ⟨s, h1, HasAt.keep h2 (by rw [h1]; exact hk), h3⟩

theorem HasAt.bound {m : List UInt8} {i : Nat} {s : List UInt8} (h : HasAt m i s) (hs : s ≠ []) : i + s.length ≤ m.length := by
  have hp := List.length_pos_iff.2 hs
  have := h (s.length - 1) (by omega)
  have := (List.getElem?_eq_some_iff.1 this).1
  omega

/-- A table all of whose parts are in the region `P`. -/
def TableIn (base : Nat) (m : List UInt8) (P : Nat → Prop) : Nat → List (List UInt8) → Prop
  | i, [] => NumAt 8 m i 0 ∧ ∀ k, i ≤ k → k < i + 8 → P k
  | i, s :: r => (∃ t, NumAt 8 m i (base + t) ∧ HasAt m t s ∧ (∀ k, i ≤ k → k < i + 8 → P k) ∧ ∀ k, t ≤ k → k < t + s.length → P k) ∧ TableIn base m P (i + 8) r

theorem TableIn.table {base : Nat} {m : List UInt8} {P : Nat → Prop} {l : List (List UInt8)} : ∀ {i : Nat}, TableIn base m P i l → Table base m i l := by
  induction l with
  | nil => intro i h; exact h.1
  | cons s r ih => rintro i ⟨⟨t, h1, h2, _⟩, h⟩; exact ⟨⟨t, h1, h2⟩, ih h⟩

theorem TableIn.keep {base : Nat} {m m' : List UInt8} {P Q : Nat → Prop} (hk : ∀ k, P k → m'[k]? = m[k]?) (hq : ∀ k, P k → Q k) {l : List (List UInt8)} :
    ∀ {i : Nat}, TableIn base m P i l → TableIn base m' Q i l := by
  induction l with
  | nil => rintro i ⟨h, hp⟩; exact ⟨NumAt.keep h (fun k a b => hk k (hp k a b)), fun k a b => hq k (hp k a b)⟩
  | cons s r ih =>
    rintro i ⟨⟨t, h1, h2, h3, h4⟩, h⟩
    exact ⟨⟨t, NumAt.keep h1 (fun k a b => hk k (h3 k a b)), HasAt.keep h2 (fun k a b => hk k (h4 k a b)), fun k a b => hq k (h3 k a b), fun k a b => hq k (h4 k a b)⟩, ih h⟩

theorem copyAddrs_spec (base hlen : Nat) : ∀ (as : List (List UInt8)) (m : List UInt8) (q buf : Nat) (len : Int), (∀ a ∈ as, a.length = hlen) → base + m.length < 256 ^ 8 →
    q + 8 * (as.length + 1) ≤ buf → 0 ≤ len → (buf : Int) + len = m.length →
    ∃ m' r, copyAddrs base hlen as m q buf len = some (m', r) ∧ m'.length = m.length ∧ (∀ k, k < q ∨ (q + 8 * (as.length + 1) ≤ k ∧ k < buf) → m'[k]? = m[k]?) ∧
      ((len < (as.length * hlen : Nat) ∧ r = none) ∨
        ((as.length * hlen : Nat) ≤ len ∧ r = some (buf + as.length * hlen, len - (as.length * hlen : Nat)) ∧
          TableIn base m' (fun k => (q ≤ k ∧ k < q + 8 * (as.length + 1)) ∨ (buf ≤ k ∧ k < buf + as.length * hlen)) q as)) := by
  intro as
  induction as with
  | nil =>
    intro m q buf len _ _ hq hl0 hb
    obtain ⟨m', h1, h2, h3, h4⟩ := leNum_spec (m := m) (i := q) (k := 8) (v := 0) (by simp at hq; omega) (by decide)
    refine ⟨m', some (buf, len), by rw [copyAddrs, h1]; rfl, h2, ?_, Or.inr ⟨by simpa using hl0, by simp, h3, ?_⟩⟩
    · intro k hk
      apply h4
      simp only [List.length_nil] at hk
      omega
    · intro k a b
      left; simp; omega
  | cons a as ih =>
    intro m q buf len ha hbase hq hl0 hb
    have hal := ha a List.mem_cons_self
    simp only [List.length_cons] at hq ⊢
    have hmul : (as.length + 1) * hlen = hlen + as.length * hlen := by rw [Nat.add_mul, Nat.one_mul, Nat.add_comm]
    rw [copyAddrs]
    by_cases hc : len - hlen < 0
    · rw [if_pos hc]
      exact ⟨m, none, rfl, rfl, fun _ _ => rfl, Or.inl ⟨by rw [hmul]; omega, rfl⟩⟩
    · rw [if_neg hc]
      have ht : a.take hlen = a := List.take_of_length_le (by omega)
      obtain ⟨m1, g1, g2, g3, g4⟩ := pokes_spec (m := m) (i := buf) (s := a) (by omega)
      obtain ⟨m2, f1, f2, f3, f4⟩ := leNum_spec (m := m1) (i := q) (k := 8) (v := base + buf) (by omega) (by omega)
      obtain ⟨m3, r, e1, e2, e3, e4⟩ := ih m2 (q + 8) (buf + hlen) (len - hlen) (fun x hx => ha x (List.mem_cons_of_mem _ hx)) (by omega) (by omega) (by omega) (by omega)
      refine ⟨m3, r, ?_, by omega, ?_, ?_⟩
      · rw [ht, g1, Option.bind_some, f1, Option.bind_some, e1]
      · intro k hk
        rw [e3 k (by omega), f4 k (by omega), g4 k (by omega)]
      · rcases e4 with ⟨h1, h2⟩ | ⟨h1, h2, h3⟩
        · exact Or.inl ⟨by rw [hmul]; omega, h2⟩
        · refine Or.inr ⟨by rw [hmul]; omega, ?_, ⟨buf, ?_, ?_, ?_, ?_⟩, ?_⟩
          · rw [h2, hmul]; congr 2 <;> omega
          · exact NumAt.keep f3 (fun k a b => e3 k (by omega))
          · exact HasAt.keep g3 (fun k a b => by rw [e3 k (by omega), f4 k (by omega)])
          · intro k a b; left; omega
          · intro k a b; right; rw [hmul]; omega
          · exact TableIn.keep (fun _ _ => rfl) (fun k hk => by rw [hmul]; omega) h3

theorem strlcpy_spec {m : List UInt8} {i : Nat} {s : List UInt8} {n : Nat} (h : i + n ≤ m.length) :
    ∃ m', strlcpy m i s n = some (m', s.length) ∧ m'.length = m.length ∧ (s.length < n → HasAt m' i (s ++ [0])) ∧ ∀ k, k < i → m'[k]? = m[k]? := by
  rcases Nat.eq_zero_or_pos n with rfl | hn
  · exact ⟨m, strlcpy_zero _ _ _, rfl, fun h => absurd h (by omega), fun _ _ => rfl⟩
  · have hl : (s.take (n - 1) ++ [0]).length = min (n - 1) s.length + 1 := by rw [List.length_append, List.length_take]; rfl
    refine ⟨_, strlcpy_eq hn (by omega), over_length (by omega), ?_, ?_⟩
    · intro hs
      rw [List.take_of_length_le (by omega)]
      exact hasAt_over (by simp; omega)
    · intro k hk
      rw [over_get (by omega), if_pos hk]

/-- Bytes of names with their NULs. -/
def namesSize (as : List (List UInt8)) : Nat := (as.map (fun a => a.length + 1)).sum

theorem copyNames_spec (base : Nat) : ∀ (as : List (List UInt8)) (m : List UInt8) (q buf : Nat) (len : Int), (∀ a ∈ as, a.length < 2147483647) → base + m.length < 256 ^ 8 →
    q + 8 * (as.length + 1) ≤ buf → 0 ≤ len → (buf : Int) + len = m.length →
    ∃ m' r, copyNames base as m q buf len = some (m', r) ∧ m'.length = m.length ∧ (∀ k, k < q ∨ (q + 8 * (as.length + 1) ≤ k ∧ k < buf) → m'[k]? = m[k]?) ∧
      ((len < (namesSize as : Nat) ∧ r = none) ∨
        ((namesSize as : Nat) ≤ len ∧ r = some (buf + namesSize as, len - (namesSize as : Nat)) ∧
          TableIn base m' (fun k => (q ≤ k ∧ k < q + 8 * (as.length + 1)) ∨ (buf ≤ k ∧ k < buf + namesSize as)) q (as.map (· ++ [0])))) := by
  intro as
  induction as with
  | nil =>
    intro m q buf len _ _ hq hl0 hb
    obtain ⟨m', h1, h2, h3, h4⟩ := leNum_spec (m := m) (i := q) (k := 8) (v := 0) (by simp at hq; omega) (by decide)
    refine ⟨m', some (buf, len), by rw [copyNames, h1]; rfl, h2, ?_, Or.inr ⟨by simpa [namesSize] using hl0, by simp [namesSize], h3, ?_⟩⟩
    · intro k hk
      apply h4
      simp only [List.length_nil] at hk
      omega
    · intro k a b
      left; simp; omega
  | cons a as ih =>
    intro m q buf len ha hbase hq hl0 hb
    have hal := ha a List.mem_cons_self
    simp only [List.length_cons] at hq ⊢
    have hsum : namesSize (a :: as) = a.length + 1 + namesSize as := by simp [namesSize]
    obtain ⟨m1, g1, g2, g3, g4⟩ := strlcpy_spec (m := m) (i := buf) (s := a) (n := len.toNat) (by omega)
    obtain ⟨m2, f1, f2, f3, f4⟩ := leNum_spec (m := m1) (i := q) (k := 8) (v := base + buf) (by omega) (by omega)
    rw [copyNames, g1, Option.bind_some]
    dsimp only
    rw [if_neg (by omega), f1, Option.bind_some]
    by_cases hc : len - (a.length + 1 : Nat) < 0
    · rw [if_pos hc]
      exact ⟨m2, none, rfl, by omega, fun k hk => by rw [f4 k (by omega), g4 k (by omega)], Or.inl ⟨by rw [hsum]; omega, rfl⟩⟩
    · rw [if_neg hc]
      obtain ⟨m3, r, e1, e2, e3, e4⟩ := ih m2 (q + 8) (buf + (a.length + 1)) (len - (a.length + 1 : Nat)) (fun x hx => ha x (List.mem_cons_of_mem _ hx)) (by omega) (by omega) (by omega)
        (by omega)
      refine ⟨m3, r, e1, by omega, ?_, ?_⟩
      · intro k hk
        rw [e3 k (by omega), f4 k (by omega), g4 k (by omega)]
      · rcases e4 with ⟨h1, h2⟩ | ⟨h1, h2, h3⟩
        · exact Or.inl ⟨by rw [hsum]; omega, h2⟩
        · have hz : (a ++ [(0 : UInt8)]).length = a.length + 1 := by simp
          refine Or.inr ⟨by rw [hsum]; omega, ?_, ⟨buf, ?_, ?_, ?_, ?_⟩, ?_⟩
          · rw [h2, hsum]; congr 2 <;> omega
          · exact NumAt.keep f3 (fun k a b => e3 k (by omega))
          · exact HasAt.keep (g3 (by omega)) (fun k a b => by rw [hz] at b; rw [e3 k (by omega), f4 k (by omega)])
          · intro k a b; left; omega
          · intro k a b; rw [hz] at b; right; rw [hsum]; omega
          · exact TableIn.keep (fun _ _ => rfl) (fun k hk => by rw [hsum]; omega) h3

theorem toInt32_small {n : Int} (h1 : -2147483648 ≤ n) (h2 : n < 2147483648) : toInt32 n = n := by unfold toInt32; omega

theorem namesSize_mem {as : List (List UInt8)} {a : List UInt8} (h : a ∈ as) : a.length + 1 ≤ namesSize as := by
  induction as with
  | nil => cases h
  | cons b as ih =>
    have : namesSize (b :: as) = b.length + 1 + namesSize as := by simp [namesSize]
    rcases List.mem_cons.1 h with rfl | h
    · omega
    · have := ih h; omega

/-! ### Reading -/

theorem HasAt.take {m : List UInt8} {i : Nat} {s : List UInt8} (h : HasAt m i s) : (m.drop i).take s.length = s := by
  apply List.ext_getElem?
  intro k
  rcases Nat.lt_or_ge k s.length with hk | hk
  · rw [List.getElem?_take_of_lt hk, List.getElem?_drop, h k hk, List.getElem?_eq_getElem hk]
  · rw [List.getElem?_eq_none hk, List.getElem?_eq_none]
    rw [List.length_take]; omega

theorem NumAt.read {k : Nat} {m : List UInt8} {i v : Nat} (h : NumAt k m i v) (hk : 0 < k) : readNum k m i = some v := by
  obtain ⟨s, h1, h2, h3⟩ := h
  have hb := HasAt.bound h2 (by rintro rfl; simp at h1; omega)
  have ht := HasAt.take h2
  rw [h1] at hb ht
  unfold readNum
  rw [if_pos hb, ht, h3]

theorem ptr_read {base : Nat} {m : List UInt8} {i t : Nat} (h : NumAt 8 m i (base + t)) : readPtr base m i = some t := by
  unfold readPtr
  rw [NumAt.read h (by decide), Option.bind_some, if_pos (by omega), Nat.add_sub_cancel_left]

theorem bytes_read {m : List UInt8} {i : Nat} {s : List UInt8} (h : HasAt m i s) (hi : i + s.length ≤ m.length) : readBytes m i s.length = some s := by
  unfold readBytes
  rw [if_pos hi, HasAt.take h]

theorem name_read {m : List UInt8} {i : Nat} {s : List UInt8} (h : HasAt m i (s ++ [0])) (h0 : (0 : UInt8) ∉ s) : i ≤ m.length ∧ cstr (m.drop i) = some s := by
  have hb := HasAt.bound h (by simp)
  have ht := HasAt.take h
  refine ⟨by omega, ?_⟩
  have e : m.drop i = s ++ 0 :: (m.drop i).drop (s ++ [(0 : UInt8)]).length := by
    conv => lhs; rw [← List.take_append_drop (s ++ [(0 : UInt8)]).length (m.drop i), ht]
    simp
  unfold cstr
  rw [e, if_pos (by simp), List.takeWhile_append_of_pos (by
    intro c hc
    simp only [ne_eq, decide_eq_true_iff]
    rintro rfl
    exact h0 hc)]
  simp

end Conman
