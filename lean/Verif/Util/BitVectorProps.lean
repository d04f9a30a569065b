import Verif.Util.BitVector
/-!
# C24: bit vectors
-/
namespace Verif.Util.Bits

/-- The array has as many bytes as the size needs. -/
def BV.Ok (v : BV) : Prop := v.bits.length = numberOfInts v.len

/-- The value of one bit, also beyond the size. -/
def BV.bit (v : BV) (i : Nat) : Bool := (v.bits.getD (i / 8) 0#8).getLsbD (i % 8)

/-- The unused bits of the last byte are zero. -/
def BV.Canonical (v : BV) : Prop := v.Ok ∧ ∀ i, v.len ≤ i → v.bit i = false

/-- **C24, storage.**  The fewest bytes that hold the bits. -/
theorem C24_bytes (n : Nat) : n ≤ 8 * numberOfInts n ∧ ∀ k, n ≤ 8 * k → numberOfInts n ≤ k := by
  simp only [numberOfInts]
  exact ⟨by omega, fun k h => by omega⟩

example : numberOfInts 9 = 2 := by decide

/-- **C24, construction.**  A new vector has the size asked for, and just the bytes for it. -/
theorem C24_new (junk : Nat → Byte) (n : Nat) :
    (new junk n).len = n ∧ (new junk n).bits.length = (n + 7) / 8 := by
  unfold new
  by_cases h : 0 < n
  · rw [if_pos h, setSize]
    by_cases h2 : ([] : List Byte).length ≠ numberOfInts n
    · rw [if_pos h2]; simp [numberOfInts]
    · simp [numberOfInts] at h2; omega
  · rw [if_neg h]; simp; omega

example : (new (fun _ => 0) 9).len = 9 := (C24_new _ 9).1

theorem numInts_pos {n : Nat} (h : 0 < n) : 0 < numberOfInts n := by
  simp only [numberOfInts]; omega

theorem lt_numInts {i n : Nat} (h : i < n) : i / 8 < numberOfInts n := by
  simp only [numberOfInts]; omega

theorem getLsbD_shl (i j : Nat) (hi : i < 8) : (1#8 <<< j).getLsbD i = decide (i = j) := by
  simp only [BitVec.getLsbD_shiftLeft, BitVec.getLsbD_one]
  by_cases h : i = j
  · subst h; simp [hi]
  · simp [h]; omega

theorem bit_modify (l : List Byte) (len : Nat) (k : Nat) (f : Byte → Byte) (i : Nat) (hk : k < l.length) :
    BV.bit ⟨l.modify k f, len⟩ i =
      if i / 8 = k then (f (l.getD k 0#8)).getLsbD (i % 8) else BV.bit ⟨l, len⟩ i := by
  simp only [BV.bit, List.getD_eq_getElem?_getD, List.getElem?_modify]
  by_cases h : i / 8 = k
  · subst h
    simp [hk]
  · have h' : ¬ k = i / 8 := fun h2 => h h2.symm
    simp [h, h']

theorem value_eq (v : BV) (i : Nat) (hv : v.Ok) (hi : i < v.len) : value v i = some (v.bit i) := by
  have hk : i / 8 < v.bits.length := by rw [hv]; exact lt_numInts hi
  simp only [value, hi, if_true, BV.bit, List.getD_eq_getElem?_getD, List.getElem?_eq_getElem hk,
    Option.map_some, Option.getD_some, Option.some.injEq]
  have key : ∀ (b : Byte) (j : Nat), j < 8 → decide (b &&& (1#8 <<< j) ≠ 0#8) = b.getLsbD j := by
    intro b j hj
    by_cases hb : b.getLsbD j = true
    · rw [hb, decide_eq_true_eq]
      intro h
      have := congrArg (fun x => x.getLsbD j) h
      simp [getLsbD_shl j j hj, hb] at this
    · have hb' : b.getLsbD j = false := by simpa using hb
      rw [hb', decide_eq_false_iff_not]
      simp only [ne_eq, Decidable.not_not]
      apply BitVec.eq_of_getLsbD_eq
      intro i hi
      rw [BitVec.getLsbD_and, getLsbD_shl i j hi]
      by_cases hij : i = j
      · subst hij; simp [hb']
      · simp [hij]
  exact key _ _ (Nat.mod_lt _ (by decide))

theorem value_mk (l : List Byte) (len i : Nat) (h : l.length = numberOfInts len) (hi : i < len) :
    value ⟨l, len⟩ i = some (BV.bit ⟨l, len⟩ i) := value_eq ⟨l, len⟩ i h hi

/-- **C24, one bit.**  Setting a bit sets that bit and no other; reading gives what was last set. -/
theorem C24_set_value (v : BV) (hv : v.Ok) (i : Nat) (b : Bool) (hi : i < v.len) :
    ∃ w, setValue v i b = some w ∧ w.Ok ∧ w.len = v.len ∧ value w i = some b ∧
      ∀ j, j < v.len → j ≠ i → value w j = value v j := by
  have hk : i / 8 < v.bits.length := by rw [hv]; exact lt_numInts hi
  refine ⟨_, (if_pos hi : setValue v i b = _), ?_, rfl, ?_, ?_⟩
  · simpa [BV.Ok] using hv
  · rw [value_mk _ _ _ (by simpa [BV.Ok] using hv) hi, bit_modify _ _ _ _ _ hk, if_pos rfl]
    cases b with
    | true =>
      simp only [if_true, BitVec.getLsbD_or, getLsbD_shl _ _ (Nat.mod_lt i (by decide : 0 < 8))]
      simp
    | false =>
      simp only [Bool.false_eq_true, if_false, BitVec.getLsbD_and, BitVec.getLsbD_not,
        getLsbD_shl _ _ (Nat.mod_lt i (by decide : 0 < 8))]
      simp
  · intro j hj hji
    rw [value_mk _ _ _ (by simpa [BV.Ok] using hv) hj, value_eq v j hv hj, bit_modify _ _ _ _ _ hk]
    by_cases h : j / 8 = i / 8
    · rw [if_pos h]
      have hm : j % 8 ≠ i % 8 := by omega
      have hj8 : j % 8 < 8 := Nat.mod_lt _ (by decide)
      cases b with
      | true =>
        simp only [if_true, BitVec.getLsbD_or, getLsbD_shl _ _ hj8, hm]
        simp [BV.bit, h]
      | false =>
        simp only [Bool.false_eq_true, if_false, BitVec.getLsbD_and, BitVec.getLsbD_not,
          getLsbD_shl _ _ hj8, hm]
        simp [BV.bit, h, hj8]
    · rw [if_neg h]

example : (setValue ⟨[5#8, 1#8], 9⟩ 8 false).bind (value · 8) = some false := by decide

/-- **C24, one bit.**  Toggling inverts that bit and no other. -/
theorem C24_toggle (v : BV) (hv : v.Ok) (i : Nat) (hi : i < v.len) :
    ∃ w, toggle v i = some w ∧ w.Ok ∧ w.len = v.len ∧ value w i = (value v i).map (!·) ∧
      ∀ j, j < v.len → j ≠ i → value w j = value v j := by
  have hk : i / 8 < v.bits.length := by rw [hv]; exact lt_numInts hi
  have hi8 : i % 8 < 8 := Nat.mod_lt _ (by decide)
  refine ⟨_, (if_pos hi : toggle v i = _), by simpa [BV.Ok] using hv, rfl, ?_, ?_⟩
  · rw [value_mk _ _ _ (by simpa [BV.Ok] using hv) hi, value_eq v i hv hi, bit_modify _ _ _ _ _ hk,
      if_pos rfl]
    simp only [BitVec.getLsbD_xor, getLsbD_shl _ _ hi8]
    simp [BV.bit]
  · intro j hj hji
    rw [value_mk _ _ _ (by simpa [BV.Ok] using hv) hj, value_eq v j hv hj, bit_modify _ _ _ _ _ hk]
    by_cases h : j / 8 = i / 8
    · rw [if_pos h]
      have hm : j % 8 ≠ i % 8 := by omega
      simp only [BitVec.getLsbD_xor, getLsbD_shl _ _ (Nat.mod_lt j (by decide : 0 < 8)), hm]
      simp [BV.bit, h]
    · rw [if_neg h]

example : (toggle ⟨[5#8, 1#8], 9⟩ 8).bind (value · 8) = some false := by decide

/-! ## Whole vectors -/

theorem lastMask_bit (len i : Nat) (hi : i < 8) :
    (lastMask len).getLsbD i = decide (i < if len % 8 ≠ 0 then len % 8 else 8) := by
  have key : ∀ k : Fin 9, ∀ i : Fin 8, ((255#8) >>> (8 - k.1)).getLsbD i.1 = decide (i.1 < k.1) := by
    decide
  simp only [lastMask]
  have hlt : (if len % 8 ≠ 0 then len % 8 else 8) < 9 := by split <;> omega
  exact key ⟨_, hlt⟩ ⟨i, hi⟩

theorem canonize_spec (v : BV) (hv : v.Ok) (hlen : 0 < v.len) :
    ∃ w, canonize v = some w ∧ w.Canonical ∧ w.len = v.len ∧ ∀ i, i < v.len → w.bit i = v.bit i := by
  have hpos : 0 < v.bits.length := by rw [hv]; exact numInts_pos hlen
  have hne : v.bits ≠ [] := by intro h; rw [h] at hpos; simp at hpos
  have hb := bit_modify v.bits v.len (v.bits.length - 1) (· &&& lastMask v.len)
  have hk : v.bits.length - 1 < v.bits.length := by omega
  have hok : v.bits.length = (v.len + 8 - 1) / 8 := hv
  refine ⟨_, (if_neg hne : canonize v = _), ⟨by simpa [BV.Ok] using hv, ?_⟩, rfl, ?_⟩
  · intro i hi
    rw [hb i hk]
    simp only at hi
    have hi8 : i % 8 < 8 := Nat.mod_lt _ (by decide)
    by_cases h : i / 8 = v.bits.length - 1
    · rw [if_pos h, BitVec.getLsbD_and, lastMask_bit _ _ hi8]
      have : ¬ (i % 8 < if v.len % 8 ≠ 0 then v.len % 8 else 8) := by
        split <;> omega
      rw [decide_eq_false this, Bool.and_false]
    · rw [if_neg h]
      have : v.bits.length ≤ i / 8 := by omega
      simp [BV.bit, List.getElem?_eq_none this]
  · intro i hi
    rw [hb i hk]
    have hi8 : i % 8 < 8 := Nat.mod_lt _ (by decide)
    by_cases h : i / 8 = v.bits.length - 1
    · rw [if_pos h, BitVec.getLsbD_and, lastMask_bit _ _ hi8]
      have : (i % 8 < if v.len % 8 ≠ 0 then v.len % 8 else 8) := by
        split <;> omega
      rw [decide_eq_true this, Bool.and_true, BV.bit, h]
    · rw [if_neg h]

/-- **C24, all bits.** `SetAll` gives every bit the value. -/
theorem C24_set_all (v : BV) (hv : v.Ok) (hlen : 0 < v.len) (b : Bool) :
    ∃ w, setAll v b = some w ∧ w.Canonical ∧ w.len = v.len ∧ ∀ i, i < v.len → value w i = some b := by
  obtain ⟨w, h1, h2, h3, h4⟩ := canonize_spec
    { v with bits := v.bits.map fun _ => if b then 255#8 else 0#8 } (by simpa [BV.Ok] using hv) hlen
  refine ⟨w, h1, h2, h3, fun i hi => ?_⟩
  rw [value_eq w i h2.1 (by rw [h3]; exact hi), h4 i hi]
  have hk : i / 8 < v.bits.length := by rw [hv]; exact lt_numInts hi
  have hi8 : i % 8 < 8 := Nat.mod_lt _ (by decide)
  simp only [BV.bit, List.getD_eq_getElem?_getD, List.getElem?_map, List.getElem?_eq_getElem hk,
    Option.map_some, Option.getD_some]
  have key : ∀ i : Fin 8, (255#8).getLsbD i.1 = true ∧ (0#8).getLsbD i.1 = false := by decide
  cases b
  · simpa using (key ⟨_, hi8⟩).2
  · simpa using (key ⟨_, hi8⟩).1

example : setAll ⟨[0#8, 0#8], 11⟩ true = some ⟨[255#8, 7#8], 11⟩ := by decide

/-- **C24, all bits.** `Complement` inverts every bit. -/
theorem C24_complement (v : BV) (hv : v.Ok) (hlen : 0 < v.len) :
    ∃ w, complement v = some w ∧ w.Canonical ∧ w.len = v.len ∧
      ∀ i, i < v.len → value w i = (value v i).map (!·) := by
  obtain ⟨w, h1, h2, h3, h4⟩ := canonize_spec
    { v with bits := v.bits.map (~~~ ·) } (by simpa [BV.Ok] using hv) hlen
  refine ⟨w, h1, h2, h3, fun i hi => ?_⟩
  rw [value_eq w i h2.1 (by rw [h3]; exact hi), h4 i hi, value_eq v i hv hi]
  have hk : i / 8 < v.bits.length := by rw [hv]; exact lt_numInts hi
  have hi8 : i % 8 < 8 := Nat.mod_lt _ (by decide)
  simp only [BV.bit, List.getD_eq_getElem?_getD, List.getElem?_map, List.getElem?_eq_getElem hk,
    Option.map_some, Option.getD_some, BitVec.getLsbD_not, hi8]
  simp

example : complement ⟨[5#8, 1#8], 9⟩ = some ⟨[250#8, 0#8], 9⟩ := by decide

theorem setSize_same (junk : Nat → Byte) (v : BV) (hv : v.Ok) : setSize junk v v.len = v := by
  simp only [setSize]
  rw [if_neg (by simpa [BV.Ok] using hv)]

theorem combine_spec (op : Byte → Byte → Byte) (a b : List Byte) (h : a.length = b.length) (k : Nat)
    (hk : k < a.length) :
    (combine op a.length a b).length = a.length ∧
    (combine op a.length a b).getD k 0#8 = op (a.getD k 0#8) (b.getD k 0#8) := by
  have hkb : k < b.length := by omega
  constructor
  · simp [combine]; omega
  · simp [combine, hk, hkb, List.getD_eq_getElem?_getD, List.getElem?_zipWith]

theorem pointwise (op : Byte → Byte → Byte) (bop : Bool → Bool → Bool)
    (hop : ∀ a b i, i < 8 → (op a b).getLsbD i = bop (a.getLsbD i) (b.getLsbD i)) (v w : BV) (hv : v.Ok)
    (hw : w.Ok) (hlen : 0 < v.len) (heq : w.len = v.len) :
    ∃ u, canonize { v with bits := combine op (numberOfInts v.len) v.bits w.bits } = some u ∧
      u.Canonical ∧ u.len = v.len ∧
      ∀ i, i < v.len → ∃ a b, value v i = some a ∧ value w i = some b ∧ value u i = some (bop a b) := by
  have hvn : v.bits.length = numberOfInts v.len := hv
  have hl : v.bits.length = w.bits.length := by
    rw [hv, show w.bits.length = numberOfInts w.len from hw, heq]
  rw [← hvn]
  have hpos : 0 < v.bits.length := by rw [hv]; exact numInts_pos hlen
  obtain ⟨u, h1, h2, h3, h4⟩ := canonize_spec
    { v with bits := combine op v.bits.length v.bits w.bits }
    (by
      show (combine op v.bits.length v.bits w.bits).length = numberOfInts v.len
      rw [(combine_spec op _ _ hl 0 hpos).1, hvn]) hlen
  refine ⟨u, h1, h2, h3, fun i hi => ⟨v.bit i, w.bit i, value_eq v i hv hi,
    value_eq w i hw (by omega), ?_⟩⟩
  rw [value_eq u i h2.1 (by rw [h3]; exact hi), h4 i hi]
  have hk : i / 8 < v.bits.length := by rw [hv]; exact lt_numInts hi
  simp only [BV.bit, (combine_spec op _ _ hl _ hk).2, hop _ _ _ (Nat.mod_lt i (by decide : 0 < 8))]

/-- **C24, two vectors (partial).**  For vectors of the same size, intersection, union and
difference work bit by bit.  Missing: different sizes (`C24_sizes_violated`) and empty vectors
(`C24_empty_violated`). -/
theorem C24_pointwise_partial (junk : Nat → Byte) (v w : BV) (hv : v.Ok) (hw : w.Ok) (hlen : 0 < v.len)
    (heq : w.len = v.len) :
    (∃ u, intersect junk v w = some u ∧ u.Canonical ∧ u.len = v.len ∧ ∀ i, i < v.len →
      ∃ a b, value v i = some a ∧ value w i = some b ∧ value u i = some (a && b)) ∧
    (∃ u, union junk v w = some u ∧ u.Canonical ∧ u.len = v.len ∧ ∀ i, i < v.len →
      ∃ a b, value v i = some a ∧ value w i = some b ∧ value u i = some (a || b)) ∧
    (∃ u, difference junk v w = some u ∧ u.Canonical ∧ u.len = v.len ∧ ∀ i, i < v.len →
      ∃ a b, value v i = some a ∧ value w i = some b ∧ value u i = some (a ^^ b)) := by
  simp only [intersect, union, difference, heq, Nat.lt_irrefl, gt_iff_lt, if_false, setSize_same junk v hv]
  refine ⟨?_, ?_, ?_⟩
  · exact pointwise (· &&& ·) (· && ·) (fun a b i _ => BitVec.getLsbD_and) v w hv hw hlen heq
  · exact pointwise (· ||| ·) (· || ·) (fun a b i _ => BitVec.getLsbD_or) v w hv hw hlen heq
  · exact pointwise (· ^^^ ·) (· ^^ ·) (fun a b i _ => BitVec.getLsbD_xor) v w hv hw hlen heq

example : union (fun _ => 0) ⟨[1#8, 1#8], 9⟩ ⟨[6#8, 0#8], 9⟩ = some ⟨[7#8, 1#8], 9⟩ := by decide

/-- **C24, copies.**  A copy has the same size and bits, whatever it had before. -/
theorem C24_assign (junk : Nat → Byte) (v w : BV) (hv : v.Ok) (hw : w.Ok) :
    (assign junk v w).Ok ∧ (assign junk v w).len = w.len ∧
      ∀ i, value (assign junk v w) i = value w i := by
  have hl : (setSize junk v w.len).bits.length = w.bits.length ∧ (setSize junk v w.len).len = w.len := by
    simp only [setSize]
    split
    · rw [show w.bits.length = numberOfInts w.len from hw]; simp
    · rename_i h
      rw [show w.bits.length = numberOfInts w.len from hw]
      exact ⟨by simpa using h, rfl⟩
  have hbits : combine (fun _ b => b) (setSize junk v w.len).bits.length (setSize junk v w.len).bits
      w.bits = w.bits := by
    have : ∀ a b : List Byte, a.length = b.length → combine (fun _ b => b) a.length a b = b := by
      intro a b h
      simp only [combine, List.take_length, List.drop_length, List.append_nil]
      induction a generalizing b with
      | nil => cases b <;> simp_all
      | cons x a ih =>
        cases b with
        | nil => simp at h
        | cons y b => simp [ih b (by simpa using h)]
    exact this _ _ hl.1
  have : assign junk v w = w := by
    simp only [assign]
    rw [hbits, hl.2]
  rw [this]
  exact ⟨hw, rfl, fun i => rfl⟩

example : (assign (fun _ => 9) ⟨[], 0⟩ ⟨[3#8], 2⟩) = ⟨[3#8], 2⟩ := by decide

set_option maxRecDepth 8000 in
/-- The table holds the numbers of set bits. -/
theorem bitcount_spec (b : Byte) : bitcount.getD b.toNat 0 = (List.range 8).countP b.getLsbD := by
  have : ∀ x : Fin 256, bitcount.getD (BitVec.ofFin (w := 8) x).toNat 0 =
      (List.range 8).countP (BitVec.ofFin (w := 8) x).getLsbD := by decide
  exact this b.toFin

/-- **C24, counting.**  `Count` gives the number of set bits of a canonical vector. -/
theorem C24_count (v : BV) (hv : v.Canonical) :
    count v = (List.range v.len).countP fun i => value v i == some true := by
  have hsum : ∀ (l : List Byte) (len : Nat), l.foldl (fun c b => c + bitcount.getD b.toNat 0) 0 =
      (List.range (8 * l.length)).countP (BV.bit ⟨l, len⟩) := by
    intro l len
    induction hl : l.length generalizing l with
    | zero =>
      have : l = [] := List.length_eq_zero_iff.1 hl
      subst this
      rfl
    | succ n ih =>
      obtain ⟨p, b, rfl⟩ : ∃ p b, l = p ++ [b] := by
        rcases List.eq_nil_or_concat l with h | ⟨p, b, h⟩
        · subst h; simp at hl
        · exact ⟨p, b, by simpa using h⟩
      have hp : p.length = n := by simpa using hl
      rw [List.foldl_append, ih p hp, List.foldl_cons, List.foldl_nil, bitcount_spec,
        show 8 * (n + 1) = 8 * n + 8 by omega, List.range_add, List.countP_append, List.countP_map]
      congr 1
      · apply List.countP_congr
        intro i hi
        have : i / 8 < n := by simp at hi; omega
        simp [BV.bit, List.getElem?_append_left, hp, this]
      · apply List.countP_congr
        intro i hi
        have hi8 : i < 8 := by simpa using hi
        have : (8 * n + i) / 8 = n := by omega
        have h2 : (8 * n + i) % 8 = i := by omega
        have hg : (p ++ [b])[n]? = some b := by rw [← hp]; simp
        simp only [Function.comp, BV.bit, this, h2, List.getD_eq_getElem?_getD, hg, Option.getD_some]
  have h1 := hsum v.bits v.len
  rw [count, h1]
  have hle : v.len ≤ 8 * v.bits.length := by
    rw [show v.bits.length = numberOfInts v.len from hv.1, numberOfInts]; omega
  obtain ⟨d, hd⟩ := Nat.exists_eq_add_of_le hle
  rw [hd, List.range_add, List.countP_append, List.countP_map]
  have hz : List.countP (BV.bit v ∘ fun x => v.len + x) (List.range d) = 0 := by
    rw [List.countP_eq_zero]
    intro i _
    simp [hv.2 (v.len + i) (by omega)]
  rw [hz, Nat.add_zero]
  apply List.countP_congr
  intro i hi
  have hi' : i < v.len := by simpa using hi
  rw [value_eq v i hv.1 hi']
  simp

example : count ⟨[7#8, 1#8], 9⟩ = 4 := by decide

/-! ## Disagreements -/

/-- **C24 fails** for different sizes: the sizes differ by a byte, so the bits of the vector operated
on are thrown away and the result has unspecified ones. -/
theorem C24_sizes_violated :
    ∃ junk, ∃ u, value ⟨[1#8], 8⟩ 0 = some true ∧ value ⟨[1#8, 1#8], 16⟩ 0 = some true ∧
      intersect junk ⟨[1#8, 1#8], 16⟩ ⟨[1#8], 8⟩ = some u ∧ value u 0 = some false := by
  refine ⟨fun _ => 0, ⟨[0#8], 8⟩, ?_⟩
  decide

/-- **C24 fails** for different sizes: the union ignores the bits of the larger operand beyond the
size of the smaller one. -/
theorem C24_union_violated :
    ∃ junk, ∃ u, value ⟨[0#8, 1#8], 16⟩ 8 = some true ∧
      union junk ⟨[1#8], 8⟩ ⟨[0#8, 1#8], 16⟩ = some u ∧ value u 8 = some false := by
  refine ⟨fun _ => 0, ⟨[0#8, 0#8], 16⟩, ?_⟩
  decide

/-- **C24 fails** for empty vectors: `SetAll`, `Complement` and the binary operations write before the
beginning of the array. -/
theorem C24_empty_violated (junk : Nat → Byte) : setAll (new junk 0) true = none ∧
    complement (new junk 0) = none ∧ union junk (new junk 0) (new junk 0) = none := by
  refine ⟨rfl, rfl, ?_⟩
  simp [union, new, setSize, numberOfInts, canonize, combine]

/-- **C24 fails** for counting: setting every bit of a new vector to 0 leaves the unused bits of the
last byte unspecified, and they are counted. -/
theorem C24_count_violated :
    ∃ junk, ∃ u, setValue (new junk 1) 0 false = some u ∧ count u = 7 := by
  refine ⟨fun _ => 255#8, ⟨[254#8], 1⟩, ?_⟩
  decide

end Verif.Util.Bits
