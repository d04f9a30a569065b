import Verif.Geom.Primvar
import Mathlib.Tactic.Linarith
import Mathlib.Tactic.Ring
import Mathlib.Tactic.NormNum
import Mathlib.Tactic.FieldSimp

/-! # Lemmas about primitive variables -/

namespace Verif.Geom.Primvar

variable {T : Type}

@[simp] theorem bind_ok {α β : Type} (a : α) (f : α → Res β) : (Res.ok a).bind f = f a := rfl

/-- The classes with a place for each value. -/
def linKind : Kind → Bool
  | .varying | .uniform | .varyingArray => true
  | .constant | .fixedArray => false

theorem linKind_iff (k : Kind) : linKind k = true ↔ k = .varying ∨ k = .uniform ∨ k = .varyingArray := by
  cases k <;> simp [linKind]

/-- The parameters that have a place for each of `n` values: single values other than constants, and arrays other than uniform and
constant; and all parameters when there is one value. -/
structure Lin (p : Param T) (n : ℕ) : Prop where
  pos : 1 ≤ p.count
  len : p.vals.length = n * p.count
  kind : linKind p.kind = true ∨ n = 1
  size : p.kind = .varyingArray → p.size = n

theorem kind_count {p : Param T} (h : p.kind = .varying ∨ p.kind = .uniform ∨ p.kind = .constant) (hp : 1 ≤ p.count) : p.count = 1 := by
  unfold Param.kind kindOf at h
  by_cases c : p.count ≤ 1
  · omega
  · rw [if_neg c] at h
    cases hc : p.cls <;> rw [hc] at h <;> simp at h

theorem Lin.offset {p : Param T} {n : ℕ} (h : Lin p n) {i : ℕ} (hi : i < n) : p.offset i = .ok (p.count * i) := by
  have l := h.len
  cases k : p.kind with
  | varying =>
    have c := kind_count (Or.inl k) h.pos
    rw [c, Nat.mul_one] at l
    unfold Param.offset
    rw [k, c, Nat.one_mul]
    exact if_pos (by omega)
  | uniform =>
    have c := kind_count (Or.inr (Or.inl k)) h.pos
    rw [c, Nat.mul_one] at l
    unfold Param.offset
    rw [k, c, Nat.one_mul]
    exact if_pos (by omega)
  | varyingArray =>
    unfold Param.offset
    rw [k, h.size k]
    exact if_pos hi
  | constant =>
    have e : n = 1 := h.kind.resolve_left (by rw [k]; decide)
    have : i = 0 := by omega
    unfold Param.offset
    rw [k, this, Nat.mul_zero]
  | fixedArray =>
    have e : n = 1 := h.kind.resolve_left (by rw [k]; decide)
    have : i = 0 := by omega
    have := h.pos
    rw [e, Nat.one_mul] at l
    unfold Param.offset
    rw [k, ‹i = 0›, Nat.mul_zero]
    exact if_pos (by omega)

theorem idx_lt {c i k n : ℕ} (hi : i < n) (hk : k < c) : c * i + k < n * c := by
  have : c * (i + 1) ≤ c * n := Nat.mul_le_mul_left c hi
  rw [Nat.mul_add, Nat.mul_one] at this
  rw [Nat.mul_comm n c]
  omega

theorem idx_inj {c i k j l : ℕ} (hk : k < c) (hl : l < c) (h : c * i + k = c * j + l) : i = j ∧ k = l := by
  have h1 : (c * i + k) / c = i := by
    rw [Nat.mul_add_div (by omega), Nat.div_eq_of_lt hk, Nat.add_zero]
  have h2 : (c * j + l) / c = j := by
    rw [Nat.mul_add_div (by omega), Nat.div_eq_of_lt hl, Nat.add_zero]
  have e : i = j := by rw [← h1, ← h2, h]
  subst e
  exact ⟨rfl, by omega⟩

theorem Lin.read {p : Param T} {n : ℕ} (h : Lin p n) {i k : ℕ} (hi : i < n) (hk : k < p.count) (x : T) :
    p.read i k = .ok x ↔ p.vals[p.count * i + k]? = some x := by
  unfold Param.read
  rw [h.offset hi, bind_ok]
  have hl : p.count * i + k < p.vals.length := by rw [h.len]; exact idx_lt hi hk
  rw [List.getElem?_eq_getElem hl]
  simp

theorem Lin.read_ok {p : Param T} {n : ℕ} (h : Lin p n) {i k : ℕ} (hi : i < n) (hk : k < p.count) :
    ∃ x, p.read i k = .ok x := by
  have hl : p.count * i + k < p.vals.length := by rw [h.len]; exact idx_lt hi hk
  exact ⟨_, (h.read hi hk _).2 (List.getElem?_eq_getElem hl)⟩

theorem Lin.write {p : Param T} {n : ℕ} (h : Lin p n) {i k : ℕ} (hi : i < n) (hk : k < p.count) (x : T) :
    p.write i k x = .ok { p with vals := p.vals.set (p.count * i + k) x } := by
  unfold Param.write
  rw [h.offset hi, bind_ok, if_pos (by rw [h.len]; exact idx_lt hi hk)]

theorem Lin.set {p : Param T} {n : ℕ} (h : Lin p n) (q : ℕ) (x : T) : Lin { p with vals := p.vals.set q x } n :=
  ⟨h.pos, by rw [List.length_set]; exact h.len, h.kind, h.size⟩

theorem resize_length (d : T) (n : ℕ) (l : List T) : (resize d n l).length = n := by
  unfold resize
  rw [List.length_append, List.length_take, List.length_replicate]
  omega

theorem resize_self (d : T) (n : ℕ) (l : List T) (h : l.length = n) : resize d n l = l := by
  unfold resize
  rw [← h]
  simp

theorem create_kind (d : T) (c : Cls) (count : ℕ) : (create d c count).cls = c ∧ (create d c count).count = count := by
  unfold create
  cases kindOf c count <;> exact ⟨rfl, rfl⟩

theorem create_lin (d : T) (c : Cls) (count n : ℕ) (hc : 1 ≤ count) (hk : linKind (kindOf c count) = true ∨ n = 1) :
    Lin ((create d c count).setSize d n) n ∧ ((create d c count).setSize d n).count = count ∧
    ((create d c count).setSize d n).cls = c := by
  obtain ⟨e1, e2⟩ := create_kind d c count
  have ek : (create d c count).kind = kindOf c count := by unfold Param.kind; rw [e1, e2]
  have hk' : linKind (create d c count).kind = true ∨ n = 1 := by rw [ek]; exact hk
  have hp : 1 ≤ (create d c count).count := by rw [e2]; exact hc
  have vec : ∀ k, (create d c count).kind = k → (create d c count).count = 1 → k ≠ .varyingArray →
      (create d c count).setSize d n = { create d c count with vals := resize d n (create d c count).vals } →
      Lin ((create d c count).setSize d n) n ∧ ((create d c count).setSize d n).count = count ∧
      ((create d c count).setSize d n).cls = c := by
    intro k hkk c1 hne es
    rw [es]
    refine ⟨⟨hp, ?_, hk', ?_⟩, e2, e1⟩
    · show (resize d n _).length = n * (create d c count).count
      rw [resize_length, c1, Nat.mul_one]
    · intro h
      exact absurd (hkk.symm.trans h) hne
  cases k : kindOf c count with
  | varying => exact vec .varying (by rw [ek, k]) (kind_count (Or.inl (by rw [ek, k])) hp) (by decide) (by unfold Param.setSize; rw [ek, k])
  | uniform =>
    exact vec .uniform (by rw [ek, k]) (kind_count (Or.inr (Or.inl (by rw [ek, k]))) hp) (by decide)
      (by unfold Param.setSize; rw [ek, k])
  | varyingArray =>
    have es : (create d c count).setSize d n =
        { create d c count with size := n, vals := resize d (n * (create d c count).count) (create d c count).vals } := by
      unfold Param.setSize
      rw [ek, k]
    rw [es]
    exact ⟨⟨hp, resize_length _ _ _, hk', fun _ => rfl⟩, e2, e1⟩
  | constant =>
    have es : (create d c count).setSize d n = create d c count := by unfold Param.setSize; rw [ek, k]
    have e : n = 1 := hk.resolve_left (by rw [k]; decide)
    have c1 := kind_count (p := create d c count) (Or.inr (Or.inr (by rw [ek, k]))) hp
    rw [es]
    refine ⟨⟨hp, ?_, hk', fun h => absurd (ek.symm.trans h) (by rw [k]; decide)⟩, e2, e1⟩
    rw [c1, e]
    unfold create
    rw [k]
    rfl
  | fixedArray =>
    have es : (create d c count).setSize d n = create d c count := by unfold Param.setSize; rw [ek, k]
    have e : n = 1 := hk.resolve_left (by rw [k]; decide)
    rw [es]
    refine ⟨⟨hp, ?_, hk', fun h => absurd (ek.symm.trans h) (by rw [k]; decide)⟩, e2, e1⟩
    rw [e2, e, Nat.one_mul]
    unfold create
    rw [k]
    exact List.length_replicate

/-! ## Loading -/

/-- What the loops keep: the first `c` values are there. -/
structure Loaded (data : ℕ → T) (n count : ℕ) (cls : Cls) (s : Param T × ℕ) (c : ℕ) : Prop where
  lin : Lin s.1 n
  cnt : s.1.count = count
  cls : s.1.cls = cls
  num : s.2 = c
  val : ∀ q, q < c → s.1.vals[q]? = some (data q)

theorem loadInner_ok {data : ℕ → T} {n count : ℕ} {cls : Cls} {i : ℕ} (hi : i < n) :
    ∀ (m : ℕ) (s : Param T × ℕ), m ≤ count → Loaded data n count cls s (count * i) →
      ∃ s', loadInner data i m s = .ok s' ∧ Loaded data n count cls s' (count * i + m)
  | 0, s, _, h => ⟨s, rfl, h⟩
  | m + 1, s, hm, h => by
    obtain ⟨s', e, h'⟩ := loadInner_ok hi m s (by omega) h
    have hw := h'.lin.write hi (show m < s'.1.count by rw [h'.cnt]; omega) (data s'.2)
    refine ⟨({ s'.1 with vals := s'.1.vals.set (s'.1.count * i + m) (data s'.2) }, s'.2 + 1), ?_, ?_⟩
    · unfold loadInner
      rw [e, bind_ok, hw, bind_ok]
    · refine ⟨h'.lin.set _ _, h'.cnt, h'.cls, by rw [h'.num]; omega, ?_⟩
      intro q hq
      show (s'.1.vals.set (s'.1.count * i + m) (data s'.2))[q]? = some (data q)
      rw [h'.cnt, h'.num, List.getElem?_set]
      by_cases c : count * i + m = q
      · rw [if_pos c, if_pos (by rw [h'.lin.len, h'.cnt]; exact idx_lt hi (by omega)), c]
      · rw [if_neg c]
        exact h'.val q (by omega)

theorem loadOuter_ok {data : ℕ → T} {n count : ℕ} {cls : Cls} :
    ∀ (m : ℕ) (s : Param T × ℕ), m ≤ n → Loaded data n count cls s 0 →
      ∃ s', loadOuter data count m s = .ok s' ∧ Loaded data n count cls s' (count * m)
  | 0, s, _, h => ⟨s, rfl, by rw [Nat.mul_zero]; exact h⟩
  | m + 1, s, hm, h => by
    obtain ⟨s', e, h'⟩ := loadOuter_ok m s (by omega) h
    obtain ⟨s'', e2, h2⟩ := loadInner_ok (show m < n by omega) count s' (le_refl _) h'
    refine ⟨s'', ?_, ?_⟩
    · unfold loadOuter
      rw [e, bind_ok, e2]
    · rw [Nat.mul_succ]
      exact h2

theorem load_lin (d : T) (c : Cls) (count n : ℕ) (data : ℕ → T) (hc : 1 ≤ count)
    (hk : linKind (kindOf c count) = true ∨ n = 1) :
    ∃ p, load d c count n data = .ok p ∧ Lin p n ∧ p.count = count ∧ p.cls = c ∧
      ∀ i k, i < n → k < count → p.read i k = .ok (data (i * count + k)) := by
  obtain ⟨h1, h2, h3⟩ := create_lin d c count n hc hk
  obtain ⟨s, e, h⟩ := loadOuter_ok (data := data) (count := count) (cls := c) n ((create d c count).setSize d n, 0) (le_refl _)
    ⟨h1, h2, h3, rfl, fun q hq => absurd hq (by omega)⟩
  refine ⟨s.1, ?_, h.lin, h.cnt, h.cls, fun i k hi hk => ?_⟩
  · unfold load
    rw [e, bind_ok]
  · rw [h.lin.read hi (by rw [h.cnt]; exact hk), h.cnt, h.val _ (by rw [Nat.mul_comm count n]; exact idx_lt hi hk),
      Nat.mul_comm count i]

/-! ## Copying -/

/-- Two parameters with the same shape. -/
structure Same (p q : Param T) : Prop where
  cls : q.cls = p.cls
  count : q.count = p.count

theorem copyElems_ok {src p : Param T} {n m it is : ℕ} (hp : Lin p n) (hs : Lin src m) (hc : src.count = p.count)
    (ht : it < n) (hi : is < m) : ∀ k, k ≤ p.count → ∃ q, copyElems src it is k p = .ok q ∧ Lin q n ∧ Same p q ∧
      (∀ j, j < k → q.vals[p.count * it + j]? = src.vals[src.count * is + j]?) ∧
      (∀ r, (∀ j, j < k → r ≠ p.count * it + j) → q.vals[r]? = p.vals[r]?)
  | 0, _ => ⟨p, rfl, hp, ⟨rfl, rfl⟩, fun j hj => absurd hj (by omega), fun _ _ => rfl⟩
  | k + 1, hk => by
    obtain ⟨q, e, lq, sq, h1, h2⟩ := copyElems_ok hp hs hc ht hi k (by omega)
    obtain ⟨x, hx⟩ := hs.read_ok hi (show k < src.count by omega)
    have hw := lq.write ht (show k < q.count by rw [sq.count]; omega) x
    have hx' := (hs.read hi (show k < src.count by omega) x).1 hx
    have hl : q.count * it + k < q.vals.length := by rw [lq.len]; exact idx_lt ht (by rw [sq.count]; omega)
    refine ⟨_, by unfold copyElems; rw [e, bind_ok, hx, bind_ok, hw], lq.set _ _, ⟨sq.cls, sq.count⟩, ?_, ?_⟩
    · intro j hj
      show (q.vals.set (q.count * it + k) x)[p.count * it + j]? = _
      rw [List.getElem?_set, sq.count]
      rw [sq.count] at hl
      by_cases c : k = j
      · rw [if_pos (by rw [c]), if_pos hl, ← c, hx']
      · rw [if_neg (by omega)]
        exact h1 j (by omega)
    · intro r hr
      show (q.vals.set (q.count * it + k) x)[r]? = _
      rw [List.getElem?_set, sq.count, if_neg (fun h => hr k (by omega) h.symm)]
      exact h2 r fun j hj => hr j (by omega)

theorem Same.kind {p q : Param T} (h : Same p q) : q.kind = p.kind := by unfold Param.kind; rw [h.cls, h.count]

theorem setValue_ok {p src : Param T} {n m it is : ℕ} (hp : Lin p n) (hk : p.kind ≠ .fixedArray) (hs : Lin src m)
    (hc : src.count = p.count) (ht : it < n) (hi : is < m) : ∃ q, p.setValue src it is = .ok q ∧ Lin q n ∧ Same p q ∧
      (∀ j, j < p.count → q.vals[p.count * it + j]? = src.vals[src.count * is + j]?) ∧
      (∀ r, (∀ j, j < p.count → r ≠ p.count * it + j) → q.vals[r]? = p.vals[r]?) := by
  by_cases k : p.kind = .varyingArray
  · have e : p.setValue src it is = copyElems src it is p.count p := by
      unfold Param.setValue
      rw [k]
      exact if_pos hc
    rw [e]
    exact copyElems_ok hp hs hc ht hi p.count (le_refl _)
  · have c1 : p.count = 1 := by
      apply kind_count _ hp.pos
      cases h : p.kind
      · exact Or.inl rfl
      · exact Or.inr (Or.inl rfl)
      · exact Or.inr (Or.inr rfl)
      · exact absurd h k
      · exact absurd h hk
    have e : p.setValue src it is = copyElems src it is 1 p := by
      have : p.setValue src it is = (src.read is 0).bind fun x => p.write it 0 x := by
        unfold Param.setValue
        cases h : p.kind with
        | varyingArray => exact absurd h k
        | fixedArray => exact absurd h hk
        | varying => rfl
        | uniform => rfl
        | constant => rfl
      rw [this]
      rfl
    rw [e]
    have h := copyElems_ok hp hs hc ht hi 1 (by omega)
    rw [c1] at h ⊢
    exact h

/-! ## Splitting -/

/-- The four values of one array element. -/
structure Corners (p : Param T) (k : ℕ) (a b c e : T) : Prop where
  r0 : p.read 0 k = .ok a
  r1 : p.read 1 k = .ok b
  r2 : p.read 2 k = .ok c
  r3 : p.read 3 k = .ok e

theorem Lin.corners {p : Param T} {n : ℕ} (h : Lin p n) (hn : 4 ≤ n) {k : ℕ} (hk : k < p.count) :
    ∃ a b c e, Corners p k a b c e := by
  obtain ⟨a, ha⟩ := h.read_ok (show 0 < n by omega) hk
  obtain ⟨b, hb⟩ := h.read_ok (show 1 < n by omega) hk
  obtain ⟨c, hc⟩ := h.read_ok (show 2 < n by omega) hk
  obtain ⟨e, he⟩ := h.read_ok (show 3 < n by omega) hk
  exact ⟨a, b, c, e, ha, hb, hc, he⟩

theorem Lin.corners_iff {p : Param T} {n : ℕ} (h : Lin p n) (hn : 4 ≤ n) {k : ℕ} (hk : k < p.count) (a b c e : T) :
    Corners p k a b c e ↔ p.vals[p.count * 0 + k]? = some a ∧ p.vals[p.count * 1 + k]? = some b ∧
      p.vals[p.count * 2 + k]? = some c ∧ p.vals[p.count * 3 + k]? = some e := by
  constructor
  · intro hh
    exact ⟨(h.read (by omega) hk _).1 hh.r0, (h.read (by omega) hk _).1 hh.r1, (h.read (by omega) hk _).1 hh.r2,
      (h.read (by omega) hk _).1 hh.r3⟩
  · rintro ⟨h0, h1, h2, h3⟩
    exact ⟨(h.read (by omega) hk _).2 h0, (h.read (by omega) hk _).2 h1, (h.read (by omega) hk _).2 h2,
      (h.read (by omega) hk _).2 h3⟩

/-- What one step of the splitting loop does. -/
theorem splitElem_ok (mid : T → T → T) (u : Bool) {p r1 r2 : Param T} (hp : Lin p 4) (h1 : Lin r1 4) (h2 : Lin r2 4)
    (s1 : Same p r1) (s2 : Same p r2) {k : ℕ} (hk : k < p.count) {a b c e : T} (hc : Corners p k a b c e)
    (e1 : ∀ i, r1.vals[p.count * i + k]? = p.vals[p.count * i + k]?) :
    ∃ q1 q2, splitElem mid u p k (r1, r2) = .ok (q1, q2) ∧ Lin q1 4 ∧ Lin q2 4 ∧ Same p q1 ∧ Same p q2 ∧
      (if u then Corners q1 k a (mid a b) c (mid c e) ∧ Corners q2 k (mid a b) b (mid c e) e
       else Corners q1 k a b (mid a c) (mid b e) ∧ Corners q2 k (mid a c) (mid b e) c e) ∧
      (∀ i j, j < p.count → j ≠ k → q1.vals[p.count * i + j]? = r1.vals[p.count * i + j]? ∧
        q2.vals[p.count * i + j]? = r2.vals[p.count * i + j]?) := by
  have hcp := (hp.corners_iff (le_refl _) hk a b c e).1 hc
  have len1 : ∀ i, i < 4 → p.count * i + k < r1.vals.length := by
    intro i hi; rw [h1.len, s1.count]; exact idx_lt hi hk
  have len2 : ∀ i, i < 4 → p.count * i + k < r2.vals.length := by
    intro i hi; rw [h2.len, s2.count]; exact idx_lt hi hk
  have ne : ∀ i j, i ≠ j → p.count * i + k ≠ p.count * j + k := fun i j hij h => hij (idx_inj hk hk h).1
  have nk : ∀ i i' j, j < p.count → j ≠ k → p.count * i' + k ≠ p.count * i + j := fun i i' j hj hjk h =>
    hjk (idx_inj hk hj h).2.symm
  have w : ∀ (q : Param T), Lin q 4 → Same p q → ∀ i, i < 4 → ∀ x, q.write i k x =
      .ok { q with vals := q.vals.set (p.count * i + k) x } := by
    intro q hq sq i hi x
    rw [hq.write hi (by rw [sq.count]; exact hk) x, sq.count]
  unfold splitElem
  rw [hc.r0, hc.r1, hc.r2, hc.r3]
  simp only [bind_ok]
  cases u
  · simp only [Bool.false_eq_true, if_false]
    rw [w r2 h2 s2 2 (by omega)]
    simp only [bind_ok]
    rw [w _ (h2.set _ _) ⟨s2.cls, s2.count⟩ 3 (by omega)]
    simp only [bind_ok]
    rw [w _ ((h2.set _ _).set _ _) ⟨s2.cls, s2.count⟩ 0 (by omega)]
    simp only [bind_ok]
    rw [w r1 h1 s1 2 (by omega)]
    simp only [bind_ok]
    rw [w _ (((h2.set _ _).set _ _).set _ _) ⟨s2.cls, s2.count⟩ 1 (by omega)]
    simp only [bind_ok]
    rw [w _ (h1.set _ _) ⟨s1.cls, s1.count⟩ 3 (by omega)]
    simp only [bind_ok]
    refine ⟨_, _, rfl, (h1.set _ _).set _ _, (((h2.set _ _).set _ _).set _ _).set _ _, ⟨s1.cls, s1.count⟩,
      ⟨s2.cls, s2.count⟩, ⟨?_, ?_⟩, ?_⟩
    · rw [((h1.set _ _).set _ _).corners_iff (le_refl _) (by show k < r1.count; rw [s1.count]; exact hk)]
      dsimp only
      rw [s1.count]
      refine ⟨?_, ?_, ?_, ?_⟩
      · rw [List.getElem?_set_ne (ne _ _ (by decide)), List.getElem?_set_ne (ne _ _ (by decide)), e1]; exact hcp.1
      · rw [List.getElem?_set_ne (ne _ _ (by decide)), List.getElem?_set_ne (ne _ _ (by decide)), e1]; exact hcp.2.1
      · rw [List.getElem?_set_ne (ne _ _ (by decide)), List.getElem?_set_self (len1 2 (by omega))]
      · rw [List.getElem?_set_self (by rw [List.length_set]; exact len1 3 (by omega))]
    · rw [((((h2.set _ _).set _ _).set _ _).set _ _).corners_iff (le_refl _) (by show k < r2.count; rw [s2.count]; exact hk)]
      dsimp only
      rw [s2.count]
      refine ⟨?_, ?_, ?_, ?_⟩
      · rw [List.getElem?_set_ne (ne _ _ (by decide)), List.getElem?_set_self (by simp only [List.length_set]; exact len2 0 (by omega))]
      · rw [List.getElem?_set_self (by simp only [List.length_set]; exact len2 1 (by omega))]
      · rw [List.getElem?_set_ne (ne _ _ (by decide)), List.getElem?_set_ne (ne _ _ (by decide)),
          List.getElem?_set_ne (ne _ _ (by decide)), List.getElem?_set_self (len2 2 (by omega))]
      · rw [List.getElem?_set_ne (ne _ _ (by decide)), List.getElem?_set_ne (ne _ _ (by decide)),
          List.getElem?_set_self (by rw [List.length_set]; exact len2 3 (by omega))]
    · intro i j hj hjk
      dsimp only
      refine ⟨?_, ?_⟩
      · rw [List.getElem?_set_ne (nk i 3 j hj hjk), List.getElem?_set_ne (nk i 2 j hj hjk)]
      · rw [List.getElem?_set_ne (nk i 1 j hj hjk), List.getElem?_set_ne (nk i 0 j hj hjk), List.getElem?_set_ne (nk i 3 j hj hjk),
          List.getElem?_set_ne (nk i 2 j hj hjk)]
  · simp only [if_true]
    rw [w r2 h2 s2 1 (by omega)]
    simp only [bind_ok]
    rw [w _ (h2.set _ _) ⟨s2.cls, s2.count⟩ 3 (by omega)]
    simp only [bind_ok]
    rw [w _ ((h2.set _ _).set _ _) ⟨s2.cls, s2.count⟩ 0 (by omega)]
    simp only [bind_ok]
    rw [w r1 h1 s1 1 (by omega)]
    simp only [bind_ok]
    rw [w _ (((h2.set _ _).set _ _).set _ _) ⟨s2.cls, s2.count⟩ 2 (by omega)]
    simp only [bind_ok]
    rw [w _ (h1.set _ _) ⟨s1.cls, s1.count⟩ 3 (by omega)]
    simp only [bind_ok]
    refine ⟨_, _, rfl, (h1.set _ _).set _ _, (((h2.set _ _).set _ _).set _ _).set _ _, ⟨s1.cls, s1.count⟩,
      ⟨s2.cls, s2.count⟩, ⟨?_, ?_⟩, ?_⟩
    · rw [((h1.set _ _).set _ _).corners_iff (le_refl _) (by show k < r1.count; rw [s1.count]; exact hk)]
      dsimp only
      rw [s1.count]
      refine ⟨?_, ?_, ?_, ?_⟩
      · rw [List.getElem?_set_ne (ne _ _ (by decide)), List.getElem?_set_ne (ne _ _ (by decide)), e1]; exact hcp.1
      · rw [List.getElem?_set_ne (ne _ _ (by decide)), List.getElem?_set_self (len1 1 (by omega))]
      · rw [List.getElem?_set_ne (ne _ _ (by decide)), List.getElem?_set_ne (ne _ _ (by decide)), e1]; exact hcp.2.2.1
      · rw [List.getElem?_set_self (by rw [List.length_set]; exact len1 3 (by omega))]
    · rw [((((h2.set _ _).set _ _).set _ _).set _ _).corners_iff (le_refl _) (by show k < r2.count; rw [s2.count]; exact hk)]
      dsimp only
      rw [s2.count]
      refine ⟨?_, ?_, ?_, ?_⟩
      · rw [List.getElem?_set_ne (ne _ _ (by decide)), List.getElem?_set_self (by simp only [List.length_set]; exact len2 0 (by omega))]
      · rw [List.getElem?_set_ne (ne _ _ (by decide)), List.getElem?_set_ne (ne _ _ (by decide)),
          List.getElem?_set_ne (ne _ _ (by decide)), List.getElem?_set_self (len2 1 (by omega))]
      · rw [List.getElem?_set_self (by simp only [List.length_set]; exact len2 2 (by omega))]
      · rw [List.getElem?_set_ne (ne _ _ (by decide)), List.getElem?_set_ne (ne _ _ (by decide)),
          List.getElem?_set_self (by rw [List.length_set]; exact len2 3 (by omega))]
    · intro i j hj hjk
      dsimp only
      refine ⟨?_, ?_⟩
      · rw [List.getElem?_set_ne (nk i 3 j hj hjk), List.getElem?_set_ne (nk i 1 j hj hjk)]
      · rw [List.getElem?_set_ne (nk i 2 j hj hjk), List.getElem?_set_ne (nk i 0 j hj hjk), List.getElem?_set_ne (nk i 3 j hj hjk),
          List.getElem?_set_ne (nk i 1 j hj hjk)]

theorem Corners.of_vals {p q : Param T} {k : ℕ} {a b c e : T} (hp : Lin p 4) (hq : Lin q 4) (s : Same p q) (hk : k < p.count)
    (h : ∀ i, q.vals[p.count * i + k]? = p.vals[p.count * i + k]?) (hc : Corners p k a b c e) : Corners q k a b c e := by
  rw [hq.corners_iff (le_refl _) (by rw [s.count]; exact hk), s.count, h, h, h, h]
  exact (hp.corners_iff (le_refl _) hk a b c e).1 hc

/-- What the splitting loop does. -/
theorem splitElems_ok (mid : T → T → T) (u : Bool) {p : Param T} (hp : Lin p 4) :
    ∀ m, m ≤ p.count → ∃ q1 q2, splitElems mid u p m (p, p) = .ok (q1, q2) ∧ Lin q1 4 ∧ Lin q2 4 ∧ Same p q1 ∧ Same p q2 ∧
      (∀ k a b c e, k < m → Corners p k a b c e →
        if u then Corners q1 k a (mid a b) c (mid c e) ∧ Corners q2 k (mid a b) b (mid c e) e
        else Corners q1 k a b (mid a c) (mid b e) ∧ Corners q2 k (mid a c) (mid b e) c e) ∧
      (∀ i j, j < p.count → m ≤ j → q1.vals[p.count * i + j]? = p.vals[p.count * i + j]? ∧
        q2.vals[p.count * i + j]? = p.vals[p.count * i + j]?)
  | 0, _ => ⟨p, p, rfl, hp, hp, ⟨rfl, rfl⟩, ⟨rfl, rfl⟩, fun k _ _ _ _ hk => absurd hk (by omega), fun _ _ _ _ => ⟨rfl, rfl⟩⟩
  | m + 1, hm => by
    obtain ⟨q1, q2, e, l1, l2, s1, s2, hc, hv⟩ := splitElems_ok mid u hp m (by omega)
    obtain ⟨a, b, c, d, hcm⟩ := hp.corners (le_refl _) (show m < p.count by omega)
    obtain ⟨t1, t2, e', l1', l2', s1', s2', hc', hv'⟩ := splitElem_ok mid u hp l1 l2 s1 s2 (show m < p.count by omega) hcm
      (fun i => (hv i m (by omega) (le_refl _)).1)
    refine ⟨t1, t2, by unfold splitElems; rw [e, bind_ok, e'], l1', l2', s1', s2', ?_, ?_⟩
    · intro k a' b' c' d' hk hck
      by_cases hkm : k = m
      · subst hkm
        have u1 : a' = a := by have := hck.r0.symm.trans hcm.r0; injection this
        have u2 : b' = b := by have := hck.r1.symm.trans hcm.r1; injection this
        have u3 : c' = c := by have := hck.r2.symm.trans hcm.r2; injection this
        have u4 : d' = d := by have := hck.r3.symm.trans hcm.r3; injection this
        subst u1 u2 u3 u4
        exact hc'
      · have h0 := hc k a' b' c' d' (by omega) hck
        have hkc : k < p.count := by omega
        have x1 : ∀ {a b c e : T}, Corners q1 k a b c e → Corners t1 k a b c e := fun h =>
          Corners.of_vals l1 l1' ⟨s1'.cls.trans s1.cls.symm, s1'.count.trans s1.count.symm⟩ (by rw [s1.count]; exact hkc)
            (fun i => by rw [s1.count]; exact (hv' i k hkc hkm).1) h
        have x2 : ∀ {a b c e : T}, Corners q2 k a b c e → Corners t2 k a b c e := fun h =>
          Corners.of_vals l2 l2' ⟨s2'.cls.trans s2.cls.symm, s2'.count.trans s2.count.symm⟩ (by rw [s2.count]; exact hkc)
            (fun i => by rw [s2.count]; exact (hv' i k hkc hkm).2) h
        cases u
        · exact ⟨x1 h0.1, x2 h0.2⟩
        · exact ⟨x1 h0.1, x2 h0.2⟩
    · intro i j hj hmj
      have := hv' i j hj (by omega)
      have h2 := hv i j hj (by omega)
      exact ⟨this.1.trans h2.1, this.2.trans h2.2⟩

theorem setSize_self (d : T) {p : Param T} {n : ℕ} (h : Lin p n) : p.setSize d n = p := by
  have l := h.len
  unfold Param.setSize
  cases k : p.kind with
  | varying =>
    rw [kind_count (Or.inl k) h.pos, Nat.mul_one] at l
    dsimp only
    rw [resize_self d n _ l]
  | uniform =>
    rw [kind_count (Or.inr (Or.inl k)) h.pos, Nat.mul_one] at l
    dsimp only
    rw [resize_self d n _ l]
  | varyingArray =>
    have e := h.size k
    dsimp only
    rw [resize_self d _ _ l]
    clear k l h
    cases p
    simp only at e ⊢
    rw [e]
  | constant => rfl
  | fixedArray => rfl

theorem Lin.getSize {p : Param T} {n : ℕ} (h : Lin p n) : p.getSize = n := by
  have l := h.len
  unfold Param.getSize
  cases k : p.kind with
  | varying => rw [kind_count (Or.inl k) h.pos, Nat.mul_one] at l; exact l
  | uniform => rw [kind_count (Or.inr (Or.inl k)) h.pos, Nat.mul_one] at l; exact l
  | varyingArray => exact h.size k
  | constant => exact (h.kind.resolve_left (by rw [k]; decide)).symm
  | fixedArray => exact (h.kind.resolve_left (by rw [k]; decide)).symm

/-! ## Dicing -/

theorem gridValues_length (u v : ℕ) (f : ℕ → ℕ → T) : (gridValues u v f).length = (v + 1) * (u + 1) := by
  simp [gridValues, List.length_flatMap]

theorem flatMap_get (f : ℕ → List T) (w : ℕ) (hw : ∀ i, (f i).length = w) (n i j : ℕ) (hi : i < n) (hj : j < w) :
    ((List.range n).flatMap f)[i * w + j]? = (f i)[j]? := by
  induction n with
  | zero => omega
  | succ n ih =>
    rw [List.range_succ, List.flatMap_append]
    have hl : ((List.range n).flatMap f).length = n * w := by
      rw [List.length_flatMap]
      simp only [hw]
      simp
    by_cases c : i < n
    · rw [List.getElem?_append_left, ih c]
      rw [hl]
      have : (i + 1) * w ≤ n * w := Nat.mul_le_mul_right w c
      rw [Nat.add_mul, Nat.one_mul] at this
      omega
    · have e : i = n := by omega
      subst e
      rw [List.getElem?_append_right (by rw [hl]; omega), hl, Nat.add_sub_cancel_left]
      simp

theorem gridValues_get (u v : ℕ) (f : ℕ → ℕ → T) (iu iv : ℕ) (hu : iu ≤ u) (hv : iv ≤ v) :
    (gridValues u v f)[iv * (u + 1) + iu]? = some (f iu iv) := by
  unfold gridValues
  rw [flatMap_get _ (u + 1) (by intro i; simp) (v + 1) iv iu (by omega) (by omega)]
  rw [List.getElem?_map, List.getElem?_range (by omega)]
  rfl

variable {K : Type} [Field K] [LinearOrder K] [IsStrictOrderedRing K]

/-- Specification: bilinear interpolation. -/
def bil (a b c d s t : K) : K := (1 - s) * (1 - t) * a + s * (1 - t) * b + (1 - s) * t * c + s * t * d

omit [IsStrictOrderedRing K] in
theorem bilinear_eq (a b c d s t : K) (hs : 0 ≤ s ∧ s ≤ 1) (ht : 0 ≤ t ∧ t ≤ 1) : bilinear a b c d s t = bil a b c d s t := by
  have e : ∀ x y r : K, 0 ≤ r ∧ r ≤ 1 → (if r ≤ 0 then x else if r ≥ 1 then y else (y - x) * r + x) = (1 - r) * x + r * y := by
    intro x y r hr
    by_cases h0 : r ≤ 0
    · have : r = 0 := le_antisymm h0 hr.1
      rw [if_pos h0, this]; ring
    · rw [if_neg h0]
      by_cases h1 : r ≥ 1
      · have : r = 1 := le_antisymm hr.2 h1
        rw [if_pos h1, this]; ring
      · rw [if_neg h1]; ring
  unfold bilinear bil
  dsimp only
  rw [e a b s hs, e c d s hs, e _ _ t ht]
  ring

end Verif.Geom.Primvar
