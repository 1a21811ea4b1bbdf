import Verif.Lemma.HostEnt

/-
C55: copies of host entries.
-/
namespace Conman

open Spec

/-- **C55.** A host entry is copied into a buffer without writing outside of it (`some`), whatever its size; the copy succeeds if and only if it fits, and then the
buffer holds the same names and addresses.  Sizes are less than 2^31 bytes, and the buffer is inside of the address space. -/
theorem C55_copy (base : Nat) (h : HostEnt) (m : List UInt8) (hok : h.Ok) (hm : m.length < 2147483648) (hb : base + m.length < 256 ^ 8) (hs : h.size < 2147483648) :
    ∃ m' r, copyHostent base h m = some (m', r) ∧ m'.length = m.length ∧ (r = true ↔ h.size ≤ m.length) ∧ (r = true → HostAt base m' h) := by
  have hsize : h.size = 32 + 8 * (h.aliases.length + 1) + 8 * (h.addrs.length + 1) + h.addrs.length * h.length + namesSize h.aliases + (h.name.length + 1) := rfl
  have hnames : ∀ a ∈ h.aliases, a.length + 1 ≤ namesSize h.aliases := fun a ha => namesSize_mem ha
  unfold copyHostent
  dsimp only
  rw [toInt32_small (n := (m.length : Int) - 32) (by omega) (by omega)]
  by_cases h1 : (m.length : Int) - 32 < 0
  · rw [if_pos h1]
    exact ⟨m, false, rfl, rfl, ⟨(fun h => by cases h), fun g => by omega⟩, fun h => by cases h⟩
  rw [if_neg h1]
  obtain ⟨m1, a1, a2, a3, a4⟩ := leNum_spec (m := m) (i := 16) (k := 4) (v := h.addrtype) (by omega) hok.small.1
  obtain ⟨m2, b1, b2, b3, b4⟩ := leNum_spec (m := m1) (i := 20) (k := 4) (v := h.length) (by omega) hok.small.2
  obtain ⟨m3, c1, c2, c3, c4⟩ := leNum_spec (m := m2) (i := 8) (k := 8) (v := base + 32) (by omega) (by omega)
  rw [a1, Option.bind_some, b1, Option.bind_some, c1, Option.bind_some, toInt32_small (by omega) (by omega)]
  by_cases h2 : (m.length : Int) - 32 - 8 * (h.aliases.length + 1) < 0
  · rw [if_pos h2]
    exact ⟨m3, false, rfl, by omega, ⟨(fun h => by cases h), fun g => by omega⟩, fun h => by cases h⟩
  rw [if_neg h2]
  obtain ⟨m4, d1, d2, d3, d4⟩ := leNum_spec (m := m3) (i := 24) (k := 8) (v := base + (32 + 8 * (h.aliases.length + 1))) (by omega) (by omega)
  rw [d1, Option.bind_some, toInt32_small (by omega) (by omega)]
  by_cases h3 : (m.length : Int) - 32 - 8 * (h.aliases.length + 1) - 8 * (h.addrs.length + 1) < 0
  · rw [if_pos h3]
    exact ⟨m4, false, rfl, by omega, ⟨(fun h => by cases h), fun g => by omega⟩, fun h => by cases h⟩
  rw [if_neg h3]
  obtain ⟨m5, r, e1, e2, e3, e4⟩ := copyAddrs_spec base h.length h.addrs m4 (32 + 8 * (h.aliases.length + 1)) (32 + 8 * (h.aliases.length + 1) + 8 * (h.addrs.length + 1)) _ hok.addrs
    (by omega) (by omega) (by omega : (0 : Int) ≤ (m.length : Int) - 32 - 8 * (h.aliases.length + 1) - 8 * (h.addrs.length + 1)) (by omega)
  rw [e1, Option.bind_some]
  rcases e4 with ⟨k1, rfl⟩ | ⟨k1, rfl, k3⟩
  · exact ⟨m5, false, rfl, by omega, ⟨(fun h => by cases h), fun g => by omega⟩, fun h => by cases h⟩
  dsimp only
  obtain ⟨m6, r, f1, f2, f3, f4⟩ := copyNames_spec base h.aliases m5 32 (32 + 8 * (h.aliases.length + 1) + 8 * (h.addrs.length + 1) + h.addrs.length * h.length) _
    (fun a ha => by have := hnames a ha; omega) (by omega) (by omega)
    (by omega : (0 : Int) ≤ (m.length : Int) - 32 - 8 * (h.aliases.length + 1) - 8 * (h.addrs.length + 1) - (h.addrs.length * h.length : Nat)) (by omega)
  rw [f1, Option.bind_some]
  rcases f4 with ⟨l1, rfl⟩ | ⟨l1, rfl, l3⟩
  · exact ⟨m6, false, rfl, by omega, ⟨(fun h => by cases h), fun g => by omega⟩, fun h => by cases h⟩
  dsimp only
  obtain ⟨m7, g1, g2, g3, g4⟩ := leNum_spec (m := m6) (i := 0) (k := 8)
    (v := base + (32 + 8 * (h.aliases.length + 1) + 8 * (h.addrs.length + 1) + h.addrs.length * h.length + namesSize h.aliases)) (by omega) (by omega)
  obtain ⟨m8, i1, i2, i3, i4⟩ := strlcpy_spec (m := m7) (i := 32 + 8 * (h.aliases.length + 1) + 8 * (h.addrs.length + 1) + h.addrs.length * h.length + namesSize h.aliases) (s := h.name)
    (n := ((m.length : Int) - 32 - 8 * (h.aliases.length + 1) - 8 * (h.addrs.length + 1) - (h.addrs.length * h.length : Nat) - (namesSize h.aliases : Nat)).toNat) (by omega)
  rw [g1, Option.bind_some, i1, Option.bind_some]
  dsimp only
  rw [if_neg (by omega)]
  refine ⟨m8, _, rfl, by omega, by rw [decide_eq_true_iff]; omega, ?_⟩
  intro hr
  rw [decide_eq_true_iff] at hr
  have old : ∀ k, 8 ≤ k → k < 32 + 8 * (h.aliases.length + 1) + 8 * (h.addrs.length + 1) + h.addrs.length * h.length + namesSize h.aliases → m8[k]? = m6[k]? := by
    intro k h1 h2
    rw [i4 k h2, g4 k (by omega)]
  have head : ∀ k, 8 ≤ k → k < 32 → m8[k]? = m4[k]? := by
    intro k h1 h2
    rw [old k h1 (by omega), f3 k (by omega), e3 k (by omega)]
  refine ⟨⟨_, NumAt.keep g3 (fun k _ h => i4 k (by omega)), i3 (by omega)⟩, ⟨32, by omega, ?_, ?_⟩, ?_, ?_, ⟨32 + 8 * (h.aliases.length + 1), by omega, ?_, ?_⟩⟩
  · exact NumAt.keep c3 (fun k a b => by rw [head k (by omega) (by omega), d4 k (by omega)])
  · exact TableIn.table (P := fun _ => True) (TableIn.keep (fun k hk => old k (by omega) (by omega)) (fun _ _ => trivial) l3)
  · exact NumAt.keep a3 (fun k a b => by rw [head k (by omega) (by omega), d4 k (by omega), c4 k (by omega), b4 k (by omega)])
  · exact NumAt.keep b3 (fun k a b => by rw [head k (by omega) (by omega), d4 k (by omega), c4 k (by omega)])
  · exact NumAt.keep d3 (fun k a b => head k (by omega) (by omega))
  · exact TableIn.table (P := fun _ => True) (TableIn.keep (fun k hk => by rw [old k (by omega) (by omega), f3 k (by omega)]) (fun _ _ => trivial) k3)

def hostDemo : HostEnt := ⟨bs "h1", [bs "a", bs "bcd"], 2, 4, [[10, 0, 0, 1], [10, 0, 0, 2]]⟩

example : hostDemo.Ok ∧ hostDemo.size = 97 ∧ (copyHostent 0x7ffe0000 hostDemo (List.replicate 97 0xAA)).map (·.2) = some true ∧
    (copyHostent 0x7ffe0000 hostDemo (List.replicate 96 0xAA)).map (·.2) = some false :=
  ⟨⟨by decide, by decide, by decide, by decide⟩, by decide, by decide +kernel, by decide +kernel⟩

/-- The name and the addresses of an entry whose copy fits are those read by the callers. -/
theorem hostAt_read {base : Nat} {m : List UInt8} {h : HostEnt} (hok : h.Ok) (hh : HostAt base m h) :
    hostName base m = some h.name ∧ readNum 4 m 20 = some h.length ∧ (0 < h.length → ∀ a l, h.addrs = a :: l → firstAddr base m = some a) := by
  obtain ⟨t, h1, h2⟩ := hh.name
  have hn := name_read h2 hok.name
  refine ⟨?_, NumAt.read hh.length (by decide), ?_⟩
  · unfold hostName
    rw [ptr_read h1, Option.bind_some, if_pos hn.1, hn.2]
  · intro h0 a l ha
    obtain ⟨t, _, h3, h4⟩ := hh.addrs
    rw [ha] at h4
    obtain ⟨⟨u, h5, h6⟩, _⟩ := h4
    have hl := hok.addrs a (by rw [ha]; exact List.mem_cons_self)
    unfold firstAddr
    rw [NumAt.read hh.length (by decide), Option.bind_some, ptr_read h3, Option.bind_some, ptr_read h5, Option.bind_some, ← hl]
    exact bytes_read h6 (HasAt.bound h6 (by rintro rfl; simp at hl; omega))

/-- **C55.** The address of a host: the first one of the resolver's, if it is one of 4 bytes and the entry fits the buffer; otherwise there is an error, and `addr` is as it
was. -/
theorem C55_addr4 (base : Nat) (found : Option HostEnt) (m addr : List UInt8) (hm : m.length = 8192) (hb : base + m.length < 256 ^ 8) (ha : addr.length = 4)
    (hf : ∀ h, found = some h → h.Ok ∧ h.size < 2147483648 ∧ 4 ≤ h.length ∧ h.addrs ≠ []) :
    nameToAddr4 base found m addr =
      match found with
      | none => some (addr, false)
      | some h => if h.size ≤ 8192 ∧ h.length = 4 then some (h.addrs.headD [], true) else some (addr, false) := by
  cases found with
  | none => rfl
  | some h =>
    obtain ⟨hok, hs, h4, hne⟩ := hf h rfl
    obtain ⟨m', r, h1, h2, h3, h5⟩ := C55_copy base h m hok (by omega) hb hs
    rw [hm] at h3
    unfold nameToAddr4 getHost
    dsimp only
    rw [h1, Option.bind_some]
    dsimp only
    cases r with
    | false =>
      have : ¬ h.size ≤ 8192 := fun g => by have := h3.2 g; cases this
      rw [if_pos rfl, if_neg (fun g => this g.1)]
    | true =>
      obtain ⟨_, g2, g3⟩ := hostAt_read hok (h5 rfl)
      rw [if_neg (by decide), g2, Option.bind_some]
      by_cases hl : h.length > 4
      · rw [if_pos hl, if_neg (by omega)]
      · rw [if_neg hl, if_pos ⟨h3.1 rfl, by omega⟩]
        obtain ⟨a, l, e⟩ : ∃ a l, h.addrs = a :: l := by
          cases hx : h.addrs with
          | nil => exact absurd hx hne
          | cons a l => exact ⟨a, l, rfl⟩
        have hal := hok.addrs a (by rw [e]; exact List.mem_cons_self)
        rw [g3 (by omega) a l e, Option.bind_some, pokes_eq a (by omega), e]
        unfold over
        rw [List.drop_eq_nil_of_le (by omega)]
        simp

example : nameToAddr4 0x1000 (some hostDemo) (List.replicate 8192 0) [0, 0, 0, 0] = some ([10, 0, 0, 1], true) := by
  rw [C55_addr4 _ _ _ _ (by decide +kernel) (by rw [List.length_replicate]; decide) rfl ?_]
  · rfl
  · rintro h ⟨⟩
    exact ⟨⟨by decide, by decide, by decide, by decide⟩, by decide, by decide, by decide⟩

/-- If the resolver gave an entry without addresses, a null pointer would be used. -/
example : nameToAddr4 0x1000 (some { hostDemo with addrs := [] }) (List.replicate 200 0) [0, 0, 0, 0] = none := by decide +kernel

theorem putName_eq (name dst : List UInt8) (n : Nat) (hd : dst.length = n) :
    putName name dst n = if name.length < n then some (name ++ List.replicate (n - name.length) 0, true) else some (dst, false) := by
  unfold putName
  by_cases h : name.length < n
  · rw [if_neg (by omega), if_pos h]
    have hlen : (name ++ List.replicate ((n : Int).toNat - name.length) (0 : UInt8)).length = n := by simp; omega
    rw [pokes_eq _ (by omega), Option.bind_some]
    have ho : over dst 0 (name ++ List.replicate ((n : Int).toNat - name.length) 0) = name ++ List.replicate (n - name.length) 0 := by
      unfold over
      rw [List.drop_eq_nil_of_le (by omega)]
      simp
    rw [ho]
    unfold poke
    rw [if_pos (by simp; omega), Option.map_some]
    congr 2
    rw [Int.toNat_natCast, List.set_append_right _ _ (by omega)]
    congr 1
    apply List.ext_getElem?
    intro k
    rw [List.getElem?_set]
    split
    · rename_i e
      subst e
      rw [if_pos (by simp; omega), List.getElem?_eq_getElem (by simp; omega), List.getElem_replicate]
    · rfl
  · rw [if_pos (by omega), if_neg h]

/-- **C55.** The name of an address, in an array of `n` bytes: the resolver's, followed by NULs, if it and the entry fit; otherwise there is an error, and the array is
as it was. -/
theorem C55_name (base : Nat) (found : Option HostEnt) (m dst : List UInt8) (n : Nat) (hm : m.length = 8192) (hb : base + m.length < 256 ^ 8) (hd : dst.length = n)
    (hf : ∀ h, found = some h → h.Ok ∧ h.size < 2147483648) :
    addr4ToName base found m dst n =
      match found with
      | none => some (dst, false)
      | some h => if h.size ≤ 8192 ∧ h.name.length < n then some (h.name ++ List.replicate (n - h.name.length) 0, true) else some (dst, false) := by
  cases found with
  | none => rfl
  | some h =>
    obtain ⟨hok, hs⟩ := hf h rfl
    obtain ⟨m', r, h1, h2, h3, h5⟩ := C55_copy base h m hok (by omega) hb hs
    rw [hm] at h3
    unfold addr4ToName getHost
    dsimp only
    rw [h1, Option.bind_some]
    dsimp only
    cases r with
    | false =>
      have : ¬ h.size ≤ 8192 := fun g => by have := h3.2 g; cases this
      rw [if_pos rfl, if_neg (fun g => this g.1)]
    | true =>
      rw [if_neg (by decide), (hostAt_read hok (h5 rfl)).1, Option.bind_some, putName_eq _ _ _ hd]
      by_cases hl : h.name.length < n
      · rw [if_pos hl, if_pos ⟨h3.1 rfl, hl⟩]
      · rw [if_neg hl, if_neg (fun g => hl g.2)]

/-- **C55.** The canonical name of a host is that of its first address. -/
theorem C55_cname (base : Nat) (h : HostEnt) (byAddr : List UInt8 → Option HostEnt) (m dst : List UInt8) (n : Nat) (hm : m.length = 8192) (hb : base + m.length < 256 ^ 8)
    (hd : dst.length = n) (hok : h.Ok) (hs : h.size ≤ 8192) (hl : h.length = 4) (a : List UInt8) (l : List (List UInt8)) (ha : h.addrs = a :: l) (h' : HostEnt) (hf : byAddr a = some h')
    (hok' : h'.Ok) (hs' : h'.size ≤ 8192) (hn : h'.name.length < n) :
    nameToCname base (some h) byAddr m dst n = some (h'.name ++ List.replicate (n - h'.name.length) 0, true) := by
  obtain ⟨m', r, h1, h2, h3, h5⟩ := C55_copy base h m hok (by omega) hb (by omega)
  have hr : r = true := h3.2 (by omega)
  subst hr
  have hal := hok.addrs a (by rw [ha]; exact List.mem_cons_self)
  unfold nameToCname getHost
  dsimp only
  rw [h1, Option.bind_some]
  dsimp only
  rw [if_neg (by decide), (hostAt_read hok (h5 rfl)).2.2 (by omega) a l ha, Option.bind_some, if_neg (by omega), hf,
    C55_name base (some h') m' dst n (by omega) (by omega) hd (by rintro x ⟨⟩; exact ⟨hok', by omega⟩)]
  dsimp only
  rw [if_pos ⟨hs', hn⟩]

theorem hostDemo_ok : hostDemo.Ok := ⟨by decide, by decide, by decide, by decide⟩

example : nameToCname 0x1000 (some hostDemo) (fun a => if a = [10, 0, 0, 1] then some { hostDemo with name := bs "h1.x" } else none) (List.replicate 8192 0) [1, 2, 3, 4, 5, 6] 6 =
    some (bs "h1.x" ++ [0, 0], true) :=
  C55_cname _ _ _ _ _ 6 List.length_replicate (by rw [List.length_replicate]; decide) rfl hostDemo_ok (by decide) rfl _ _ rfl { hostDemo with name := bs "h1.x" } (by decide)
    ⟨by decide, by decide, by decide, by decide⟩ (by decide) (by decide)

/-- An address of more than 4 bytes would be copied over the end of the variable for it: unlike in C55_addr4, its length is not checked. -/
theorem C55_cname_long (base : Nat) (h : HostEnt) (byAddr : List UInt8 → Option HostEnt) (m dst : List UInt8) (n : Int) (hm : m.length = 8192) (hb : base + m.length < 256 ^ 8)
    (hok : h.Ok) (hs : h.size ≤ 8192) (hl : 4 < h.length) (hne : h.addrs ≠ []) : nameToCname base (some h) byAddr m dst n = none := by
  obtain ⟨m', r, h1, h2, h3, h5⟩ := C55_copy base h m hok (by omega) hb (by omega)
  have hr : r = true := h3.2 (by omega)
  subst hr
  obtain ⟨a, l, ha⟩ : ∃ a l, h.addrs = a :: l := by
    cases hx : h.addrs with
    | nil => exact absurd hx hne
    | cons a l => exact ⟨a, l, rfl⟩
  have hal := hok.addrs a (by rw [ha]; exact List.mem_cons_self)
  unfold nameToCname getHost
  dsimp only
  rw [h1, Option.bind_some]
  dsimp only
  rw [if_neg (by decide), (hostAt_read hok (h5 rfl)).2.2 (by omega) a l ha, Option.bind_some, if_pos (by omega)]

example : nameToCname 0x1000 (some ⟨bs "h", [], 10, 16, [List.replicate 16 1]⟩) (fun _ => none) (List.replicate 8192 0) [] 0 = none :=
  C55_cname_long _ _ _ _ _ _ List.length_replicate (by rw [List.length_replicate]; decide) ⟨by decide, by decide, by decide, by decide⟩ (by decide) (by decide) (by decide)

end Conman
