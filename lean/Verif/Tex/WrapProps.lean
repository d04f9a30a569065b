import Verif.Tex.Wrap
import Verif.Tex.SupportProps
import Verif.Tex.TileArrayProps
import Mathlib.Data.List.Nodup
import Mathlib.Data.List.Pairwise
/-!
# C40: filtering with wrap modes
-/

namespace Verif.Tex.Wrap

/-- The iterator of the texture does what C33 says: it goes through every pixel of
the region that is in the image exactly once. -/
structure Tex.Ok {S : Type} (T : Tex S) : Prop where
  hw : 0 < T.w
  hh : 0 < T.h
  nodup : ∀ s, (T.en s).Nodup
  mem : ∀ s x y, (x, y) ∈ T.en s ↔ s.Mem (x, y) ∧ (0 ≤ x ∧ x < T.w ∧ 0 ≤ y ∧ y < T.h)

/-- Every tiled texture gives such a `Tex` (by C33). -/
theorem ok_of_tiles (A : Tile.Arr) (hW : 0 < A.width) (hH : 0 < A.height) (htw : 0 < A.tw)
    (hth : 0 < A.th) {S : Type} (fetch : Int → Int → S) (black : S) :
    ∃ T : Tex S, T.Ok ∧ T.w = A.width ∧ T.h = A.height ∧ T.fetch = fetch ∧ T.black = black ∧
      ∀ s, ∃ N, ∀ f, N ≤ f → Tile.visit fetch A s f = .done ((T.en s).map fun p => (p, fetch p.1 p.2)) := by
  have h := fun s => Tile.C33_visit (fetch := fetch) A s hW hH htw hth
  refine ⟨⟨A.width, A.height, fetch, black, fun s => ((h s).choose_spec).choose⟩, ⟨hW, hH, ?_, ?_⟩,
    rfl, rfl, rfl, rfl, ?_⟩
  · intro s; exact ((h s).choose_spec).choose_spec.1
  · intro s x y
    have := ((h s).choose_spec).choose_spec.2.1 x y
    simp only [Support.Mem, Support1D.Mem]
    rw [this]; omega
  · intro s
    exact ⟨(h s).choose, ((h s).choose_spec).choose_spec.2.2⟩

/-- Where coordinate `x` of an infinite line finds its value in `0 … n-1`; `none`
is black. -/
def coord (m : Mode) (n x : Int) : Option Int :=
  if 0 ≤ x ∧ x < n then some x
  else match m with
    | .black => none
    | .periodic => some (x % n)
    | .clamp => some (if x < 0 then 0 else n - 1)
    | .trunc => none

/-- The value the wrapped texture has at a point of the plane. -/
def sample {S : Type} (T : Tex S) (sw tw : Mode) (x y : Int) : S :=
  match coord sw T.w x, coord tw T.h y with
  | some a, some b => T.fetch a b
  | _, _ => T.black

theorem mem_span (s : Support1D) (x : Int) : x ∈ span s ↔ s.Mem x := by
  unfold span Support1D.Mem
  simp only [List.mem_map, List.mem_range]
  constructor
  · rintro ⟨k, hk, rfl⟩; omega
  · intro h; exact ⟨(x - s.start).toNat, by omega, by omega⟩

theorem nodup_span (s : Support1D) : (span s).Nodup := by
  unfold span
  refine List.Nodup.map ?_ List.nodup_range
  intro a b h; simp only at h; omega

theorem mem_rect (s : Support) (p : Int × Int) : p ∈ rect s ↔ s.Mem p := by
  unfold rect Support.Mem
  simp only [List.mem_flatMap, List.mem_map, mem_span]
  constructor
  · rintro ⟨x, hx, y, hy, rfl⟩; exact ⟨hx, hy⟩
  · rintro ⟨hx, hy⟩; exact ⟨p.1, hx, p.2, hy, rfl⟩

/-- A `flatMap` is free of repetitions when every element of a part determines the
part it is in. -/
theorem nodup_flatMap_of {α β : Type} {l : List α} {f : α → List β} (hl : l.Nodup)
    (hf : ∀ a ∈ l, (f a).Nodup) (g : ∀ a ∈ l, ∀ a' ∈ l, ∀ b, b ∈ f a → b ∈ f a' → a = a') :
    (l.flatMap f).Nodup := by
  rw [List.nodup_flatMap]
  refine ⟨hf, ?_⟩
  induction l with
  | nil => exact List.Pairwise.nil
  | cons a l ih =>
    rw [List.nodup_cons] at hl
    refine List.Pairwise.cons ?_ (ih hl.2 (fun a ha => hf a (by simp [ha]))
      (fun a ha a' ha' => g a (by simp [ha]) a' (by simp [ha'])))
    intro a' ha'
    simp only [Function.onFun]
    intro b hb hb'
    have := g a (by simp) a' (by simp [ha']) b hb hb'
    subst this
    exact hl.1 ha'

theorem nodup_rect (s : Support) : (rect s).Nodup := by
  unfold rect
  refine nodup_flatMap_of (nodup_span _) ?_ ?_
  · intro x _
    refine (nodup_span _).map ?_
    intro a b h; simpa using h
  · intro a _ a' _ b hb hb'
    simp only [List.mem_map] at hb hb'
    obtain ⟨_, _, rfl⟩ := hb
    obtain ⟨_, _, h⟩ := hb'
    simp only [Prod.mk.injEq] at h
    exact h.1.symm

/-- Tile origins: the multiples of `w` whose tile can meet the region. -/
theorem mem_origins {w stop : Int} (hw : 0 < w) : ∀ (n : Nat) (x t : Int), stop - x ≤ n →
    (t ∈ origins w stop n x ↔ ∃ k : Nat, t = x + k * w ∧ t < stop) := by
  intro n
  induction n with
  | zero =>
    intro x t h
    simp only [origins, List.not_mem_nil, false_iff]
    rintro ⟨k, rfl, h2⟩
    have : 0 ≤ (k : Int) * w := Int.mul_nonneg (by omega) (by omega)
    push_cast at h; omega
  | succ n ih =>
    intro x t h
    unfold origins
    split
    · rename_i hx
      rw [List.mem_cons, ih (x + w) t (by push_cast at h; omega)]
      constructor
      · rintro (rfl | ⟨k, rfl, h2⟩)
        · exact ⟨0, by simp, hx⟩
        · exact ⟨k + 1, by push_cast; ring, h2⟩
      · rintro ⟨k, rfl, h2⟩
        cases k with
        | zero => left; simp
        | succ k => right; exact ⟨k, by push_cast; ring, h2⟩
    · rename_i hx
      simp only [List.not_mem_nil, false_iff]
      rintro ⟨k, rfl, h2⟩
      have : 0 ≤ (k : Int) * w := Int.mul_nonneg (by omega) (by omega)
      omega

theorem nodup_origins {w stop : Int} (hw : 0 < w) : ∀ (n : Nat) (x : Int), stop - x ≤ n →
    (origins w stop n x).Nodup := by
  intro n
  induction n with
  | zero => intro x _; simp [origins]
  | succ n ih =>
    intro x h
    unfold origins
    split
    · rw [List.nodup_cons]
      refine ⟨?_, ih _ (by push_cast at h; omega)⟩
      rw [mem_origins hw _ _ _ (by push_cast at h; omega)]
      rintro ⟨k, hk, _⟩
      have : 0 ≤ (k : Int) * w := Int.mul_nonneg (by omega) (by omega)
      omega
    · simp

theorem mem_tileStarts {w : Int} (hw : 0 < w) (s : Support1D) (t : Int) :
    t ∈ tileStarts w s → ∃ q : Int, t = q * w := by
  unfold tileStarts
  rw [mem_origins hw _ _ _ (by omega)]
  rintro ⟨k, rfl, _⟩
  exact ⟨s.start / w + k, by ring⟩

theorem tileStarts_has {w : Int} (hw : 0 < w) (s : Support1D) (x : Int) (hx : s.Mem x) :
    x / w * w ∈ tileStarts w s := by
  unfold tileStarts
  rw [mem_origins hw _ _ _ (by omega)]
  obtain ⟨h1, h2⟩ := hx
  have hle : s.start / w ≤ x / w := Int.ediv_le_ediv hw h1
  refine ⟨(x / w - s.start / w).toNat, ?_, ?_⟩
  · rw [Int.toNat_of_nonneg (by omega)]; ring
  · have := Int.ediv_mul_le x (by omega : w ≠ 0); omega

theorem nodup_tileStarts {w : Int} (hw : 0 < w) (s : Support1D) : (tileStarts w s).Nodup :=
  nodup_origins hw _ _ (by omega)

/-- A point in the tile at origin `t` determines `t`. -/
theorem tile_unique {w t x : Int} (hw : 0 < w) (ht : ∃ q, t = q * w) (h1 : t ≤ x) (h2 : x < t + w) :
    t = x / w * w := by
  obtain ⟨q, rfl⟩ := ht
  have : x / w = q := by
    apply le_antisymm
    · have := Int.ediv_lt_of_lt_mul hw (a := x) (b := q + 1) (by rw [Int.add_mul]; omega)
      omega
    · exact (Int.le_ediv_iff_mul_le hw).2 h1
  rw [this]

/-- Coordinates in a tile other than the image itself. -/
theorem coord_tile {m : Mode} {w t x : Int} (hw : 0 < w) (ht : ∃ q, t = q * w) (h1 : t ≤ x)
    (h2 : x < t + w) :
    coord m w x = if t = 0 then some x else
      match m with
      | .black => none
      | .periodic => some (x - t)
      | .clamp => some (clampTo t 0 (w - 1))
      | .trunc => none := by
  by_cases h0 : t = 0
  · subst h0
    rw [if_pos rfl]; unfold coord; rw [if_pos (by omega)]
  · rw [if_neg h0]
    obtain ⟨q, rfl⟩ := ht
    have hq : q ≠ 0 := by rintro rfl; simp at h0
    have hqw : q * w ≤ -w ∨ w ≤ q * w := by
      rcases Int.lt_or_gt_of_ne hq with h | h
      · left
        have : (q + 1) * w ≤ 0 := Int.mul_nonpos_of_nonpos_of_nonneg (by omega) (by omega)
        rw [Int.add_mul] at this; omega
      · right
        have : 0 ≤ (q - 1) * w := Int.mul_nonneg (by omega) (by omega)
        rw [Int.sub_mul] at this; omega
    unfold coord
    rw [if_neg (by omega)]
    cases m
    · rfl
    · simp only [Option.some.injEq]
      have : x % w = (x - q * w) % w := (Int.sub_mul_emod_self_right x q w).symm
      rw [this, Int.emod_eq_of_lt (by omega) (by omega)]
    · simp only [Option.some.injEq]
      unfold clampTo
      rcases hqw with h | h
      · rw [if_pos (by omega), if_pos (by omega)]
      · rw [if_neg (by omega), if_neg (by omega), if_pos (by omega)]
    · rfl

/-- Clamping in one direction while repeating in the other. -/
def Mixed (sw tw : Mode) : Prop :=
  (sw = .clamp ∧ tw = .periodic) ∨ (sw = .periodic ∧ tw = .clamp)

/-- What is accumulated for the tile at `(tlX, tlY)`. -/
theorem wrapped_spec {S : Type} (T : Tex S) (hT : T.Ok) (s : Support) (sw tw : Mode)
    (hs : sw ≠ .trunc) (ht : tw ≠ .trunc) (tlX tlY : Int) (hx : ∃ q, tlX = q * T.w)
    (hy : ∃ q, tlY = q * T.h) (h0 : ¬ (tlX = 0 ∧ tlY = 0)) :
    ((wrapped T s sw tw tlX tlY).map Prod.fst).Nodup ∧
    (∀ p v, (p, v) ∈ wrapped T s sw tw tlX tlY →
      s.Mem p ∧ (tlX ≤ p.1 ∧ p.1 < tlX + T.w) ∧ (tlY ≤ p.2 ∧ p.2 < tlY + T.h) ∧
      v = sample T sw tw p.1 p.2) ∧
    (¬ Mixed sw tw → ∀ p, s.Mem p → (tlX ≤ p.1 ∧ p.1 < tlX + T.w) → (tlY ≤ p.2 ∧ p.2 < tlY + T.h) →
      ∃ v, (p, v) ∈ wrapped T s sw tw tlX tlY) := by
  have hw := hT.hw
  have hh := hT.hh
  have hmem : ∀ p, (s.intersect (Support.mk4 tlX (tlX + T.w) tlY (tlY + T.h))).Mem p ↔
      s.Mem p ∧ (tlX ≤ p.1 ∧ p.1 < tlX + T.w) ∧ (tlY ≤ p.2 ∧ p.2 < tlY + T.h) := by
    intro p; rw [C34_intersect]; rfl
  have hcx : ∀ {x}, (tlX ≤ x ∧ x < tlX + T.w) → _ := fun {x} h =>
    coord_tile (m := sw) hw hx h.1 h.2
  have hcy : ∀ {y}, (tlY ≤ y ∧ y < tlY + T.h) → _ := fun {y} h =>
    coord_tile (m := tw) hh hy h.1 h.2
  have hbx : tlX = 0 ∨ tlX ≤ -T.w ∨ T.w ≤ tlX := by
    obtain ⟨q, rfl⟩ := hx
    rcases Int.lt_trichotomy q 0 with h | h | h
    · right; left
      have : (q + 1) * T.w ≤ 0 := Int.mul_nonpos_of_nonpos_of_nonneg (by omega) (by omega)
      rw [Int.add_mul] at this; omega
    · left; rw [h]; simp
    · right; right
      have : 0 ≤ (q - 1) * T.w := Int.mul_nonneg (by omega) (by omega)
      rw [Int.sub_mul] at this; omega
  have hby : tlY = 0 ∨ tlY ≤ -T.h ∨ T.h ≤ tlY := by
    obtain ⟨q, rfl⟩ := hy
    rcases Int.lt_trichotomy q 0 with h | h | h
    · right; left
      have : (q + 1) * T.h ≤ 0 := Int.mul_nonpos_of_nonpos_of_nonneg (by omega) (by omega)
      rw [Int.add_mul] at this; omega
    · left; rw [h]; simp
    · right; right
      have : 0 ≤ (q - 1) * T.h := Int.mul_nonneg (by omega) (by omega)
      rw [Int.sub_mul] at this; omega
  unfold wrapped
  simp only
  generalize s.intersect (Support.mk4 tlX (tlX + T.w) tlY (tlY + T.h)) = ts at hmem
  by_cases c1 : (sw = .black ∧ tlX ≠ 0) ∨ (tw = .black ∧ tlY ≠ 0)
  · rw [if_pos c1]
    refine ⟨?_, ?_, ?_⟩
    · rw [List.map_map]
      exact (nodup_rect ts).map (by intro a b h; exact h)
    · intro p v hp
      simp only [List.mem_map, Prod.mk.injEq] at hp
      obtain ⟨p', hp', rfl, rfl⟩ := hp
      rw [mem_rect, hmem] at hp'
      refine ⟨hp'.1, hp'.2.1, hp'.2.2, ?_⟩
      unfold sample
      rw [hcx hp'.2.1, hcy hp'.2.2]
      rcases c1 with ⟨rfl, h⟩ | ⟨rfl, h⟩
      · rw [if_neg h]
      · rw [if_neg h]
        split <;> first | rfl | contradiction
    · intro _ p h1 h2 h3
      exact ⟨T.black, List.mem_map.2 ⟨p, (mem_rect _ _).2 ((hmem p).2 ⟨h1, h2, h3⟩), rfl⟩⟩
  · rw [if_neg c1]
    by_cases c2 : sw = .clamp ∧ tlX ≠ 0
    · rw [if_pos c2]
      obtain ⟨rfl, hx0⟩ := c2
      by_cases c3 : tw = .clamp ∧ tlY ≠ 0
      · rw [if_pos c3]
        obtain ⟨rfl, hy0⟩ := c3
        refine ⟨?_, ?_, ?_⟩
        · rw [List.map_map]
          exact (nodup_rect ts).map (by intro a b h; exact h)
        · intro p v hp
          simp only [List.mem_map, Prod.mk.injEq] at hp
          obtain ⟨p', hp', rfl, rfl⟩ := hp
          rw [mem_rect, hmem] at hp'
          refine ⟨hp'.1, hp'.2.1, hp'.2.2, ?_⟩
          unfold sample
          rw [hcx hp'.2.1, hcy hp'.2.2, if_neg hx0, if_neg hy0]
        · intro _ p h1 h2 h3
          exact ⟨_, List.mem_map.2 ⟨p, (mem_rect _ _).2 ((hmem p).2 ⟨h1, h2, h3⟩), rfl⟩⟩
      · rw [if_neg c3]
        have hxc : 0 ≤ clampTo tlX 0 (T.w - 1) ∧ clampTo tlX 0 (T.w - 1) < T.w := by
          unfold clampTo; split
          · omega
          · split <;> omega
        have hen : ∀ p, p ∈ T.en ⟨⟨clampTo tlX 0 (T.w - 1), clampTo tlX 0 (T.w - 1) + 1⟩, ts.sy⟩ ↔
            p.1 = clampTo tlX 0 (T.w - 1) ∧ ts.sy.Mem p.2 ∧ 0 ≤ p.2 ∧ p.2 < T.h := by
          rintro ⟨x, y⟩
          rw [hT.mem]
          simp only [Support.Mem, Support1D.Mem]
          omega
        refine ⟨?_, ?_, ?_⟩
        · rw [List.map_flatMap]
          refine nodup_flatMap_of (hT.nodup _) ?_ ?_
          · intro p _
            rw [List.map_map]
            refine (nodup_span _).map ?_
            intro a b h; simpa using h
          · intro a ha a' ha' b hb hb'
            simp only [List.mem_map] at hb hb'
            obtain ⟨_, ⟨_, _, rfl⟩, rfl⟩ := hb
            obtain ⟨_, ⟨_, _, rfl⟩, h⟩ := hb'
            simp only [Prod.mk.injEq] at h
            rw [hen] at ha ha'
            exact Prod.ext (ha.1.trans ha'.1.symm) h.2.symm
        · intro p v hp
          simp only [List.mem_flatMap, List.mem_map, Prod.mk.injEq] at hp
          obtain ⟨p', hp', ix, hix, rfl, rfl⟩ := hp
          rw [hen] at hp'
          rw [mem_span] at hix
          have hm := (hmem (ix, p'.2)).1 ⟨hix, hp'.2.1⟩
          refine ⟨hm.1, hm.2.1, hm.2.2, ?_⟩
          have hy0 : tlY = 0 := by have := hm.2.2; simp only at this; omega
          unfold sample
          simp only
          rw [hcx hm.2.1, hcy hm.2.2, if_neg hx0, if_pos hy0, hp'.1]
        · intro hmix p h1 h2 h3
          have hy0 : tlY = 0 := by
            by_contra hne
            cases tw
            · exact c1 (Or.inr ⟨rfl, hne⟩)
            · exact hmix (Or.inl ⟨rfl, rfl⟩)
            · exact c3 ⟨rfl, hne⟩
            · exact ht rfl
          have hm := (hmem p).2 ⟨h1, h2, h3⟩
          refine ⟨T.fetch (clampTo tlX 0 (T.w - 1)) p.2, ?_⟩
          simp only [List.mem_flatMap, List.mem_map, Prod.mk.injEq]
          exact ⟨(clampTo tlX 0 (T.w - 1), p.2), (hen _).2 ⟨rfl, hm.2, by simp only; omega⟩, p.1,
            (mem_span _ _).2 hm.1, rfl, rfl⟩
    · rw [if_neg c2]
      by_cases c3 : tw = .clamp ∧ tlY ≠ 0
      · rw [if_pos c3]
        obtain ⟨rfl, hy0⟩ := c3
        have hyc : 0 ≤ clampTo tlY 0 (T.h - 1) ∧ clampTo tlY 0 (T.h - 1) < T.h := by
          unfold clampTo; split
          · omega
          · split <;> omega
        have hen : ∀ p, p ∈ T.en ⟨ts.sx, ⟨clampTo tlY 0 (T.h - 1), clampTo tlY 0 (T.h - 1) + 1⟩⟩ ↔
            p.2 = clampTo tlY 0 (T.h - 1) ∧ ts.sx.Mem p.1 ∧ 0 ≤ p.1 ∧ p.1 < T.w := by
          rintro ⟨x, y⟩
          rw [hT.mem]
          simp only [Support.Mem, Support1D.Mem]
          omega
        refine ⟨?_, ?_, ?_⟩
        · rw [List.map_flatMap]
          refine nodup_flatMap_of (hT.nodup _) ?_ ?_
          · intro p _
            rw [List.map_map]
            refine (nodup_span _).map ?_
            intro a b h; simpa using h
          · intro a ha a' ha' b hb hb'
            simp only [List.mem_map] at hb hb'
            obtain ⟨_, ⟨_, _, rfl⟩, rfl⟩ := hb
            obtain ⟨_, ⟨_, _, rfl⟩, h⟩ := hb'
            simp only [Prod.mk.injEq] at h
            rw [hen] at ha ha'
            exact Prod.ext h.1.symm (ha.1.trans ha'.1.symm)
        · intro p v hp
          simp only [List.mem_flatMap, List.mem_map, Prod.mk.injEq] at hp
          obtain ⟨p', hp', iy, hiy, rfl, rfl⟩ := hp
          rw [hen] at hp'
          rw [mem_span] at hiy
          have hm := (hmem (p'.1, iy)).1 ⟨hp'.2.1, hiy⟩
          refine ⟨hm.1, hm.2.1, hm.2.2, ?_⟩
          have hx0 : tlX = 0 := by have := hm.2.1; simp only at this; omega
          unfold sample
          simp only
          rw [hcx hm.2.1, hcy hm.2.2, if_pos hx0, if_neg hy0, hp'.1]
        · intro hmix p h1 h2 h3
          have hx0 : tlX = 0 := by
            by_contra hne
            cases sw
            · exact c1 (Or.inl ⟨rfl, hne⟩)
            · exact hmix (Or.inr ⟨rfl, rfl⟩)
            · exact c2 ⟨rfl, hne⟩
            · exact hs rfl
          have hm := (hmem p).2 ⟨h1, h2, h3⟩
          refine ⟨T.fetch p.1 (clampTo tlY 0 (T.h - 1)), ?_⟩
          simp only [List.mem_flatMap, List.mem_map, Prod.mk.injEq]
          exact ⟨(p.1, clampTo tlY 0 (T.h - 1)), (hen _).2 ⟨rfl, hm.1, by simp only; omega⟩, p.2,
            (mem_span _ _).2 hm.2, rfl, rfl⟩
      · rw [if_neg c3]
        -- periodic in each direction that is displaced
        have hsx : tlX ≠ 0 → sw = .periodic := by
          intro hne
          cases sw
          · exact absurd (Or.inl ⟨rfl, hne⟩) c1
          · rfl
          · exact absurd ⟨rfl, hne⟩ c2
          · exact absurd rfl hs
        have hsy : tlY ≠ 0 → tw = .periodic := by
          intro hne
          cases tw
          · exact absurd (Or.inr ⟨rfl, hne⟩) c1
          · rfl
          · exact absurd ⟨rfl, hne⟩ c3
          · exact absurd rfl ht
        have hen : ∀ p, p ∈ T.en (Support.mk4 (ts.sx.start - tlX) (ts.sx.stop - tlX)
            (ts.sy.start - tlY) (ts.sy.stop - tlY)) ↔
            ts.Mem (p.1 + tlX, p.2 + tlY) ∧ 0 ≤ p.1 ∧ p.1 < T.w ∧ 0 ≤ p.2 ∧ p.2 < T.h := by
          rintro ⟨x, y⟩
          rw [hT.mem]
          simp only [Support.Mem, Support1D.Mem, Support.mk4]
          omega
        refine ⟨?_, ?_, ?_⟩
        · rw [List.map_map]
          refine (hT.nodup _).map ?_
          rintro ⟨a, b⟩ ⟨c, d⟩ h
          simp only [Function.comp, Prod.mk.injEq] at h ⊢
          omega
        · intro p v hp
          simp only [List.mem_map, Prod.mk.injEq] at hp
          obtain ⟨p', hp', rfl, rfl⟩ := hp
          rw [hen] at hp'
          have hm := (hmem _).1 hp'.1
          refine ⟨hm.1, hm.2.1, hm.2.2, ?_⟩
          unfold sample
          simp only
          have e1 : coord sw T.w (p'.1 + tlX) = some p'.1 := by
            rw [hcx hm.2.1]
            by_cases h : tlX = 0
            · rw [if_pos h, h]; simp
            · have h' := hsx h
              subst h'
              rw [if_neg h]; simp
          have e2 : coord tw T.h (p'.2 + tlY) = some p'.2 := by
            rw [hcy hm.2.2]
            by_cases h : tlY = 0
            · rw [if_pos h, h]; simp
            · have h' := hsy h
              subst h'
              rw [if_neg h]; simp
          rw [e1, e2]
        · intro _ p h1 h2 h3
          have hm := (hmem p).2 ⟨h1, h2, h3⟩
          refine ⟨T.fetch (p.1 - tlX) (p.2 - tlY), ?_⟩
          simp only [List.mem_map, Prod.mk.injEq]
          refine ⟨(p.1 - tlX, p.2 - tlY), (hen _).2 ⟨?_, by simp only; omega⟩, ?_, rfl⟩
          · simpa using hm
          · simp

/-- The points accumulated by `filterTexture`. -/
def points {S : Type} (l : List ((Int × Int) × S)) : List (Int × Int) := l.map Prod.fst

/-- **C40, soundness.**  For all wrap modes but "trunc": every sample accumulated is
at a point of the support and has the value the wrapped texture has there, and no
point is accumulated twice. -/
theorem C40_sound {S : Type} (T : Tex S) (hT : T.Ok) (s : Support) (sw tw : Mode)
    (hs : sw ≠ .trunc) (ht : tw ≠ .trunc) :
    (points (filterTexture T s sw tw)).Nodup ∧
    ∀ p v, (p, v) ∈ filterTexture T s sw tw → s.Mem p ∧ v = sample T sw tw p.1 p.2 := by
  have hw := hT.hw
  have hh := hT.hh
  have hfirst : ∀ p v, (p, v) ∈ (T.en s).map (fun p => (p, T.fetch p.1 p.2)) →
      s.Mem p ∧ (0 ≤ p.1 ∧ p.1 < T.w ∧ 0 ≤ p.2 ∧ p.2 < T.h) ∧ v = sample T sw tw p.1 p.2 := by
    intro p v hp
    simp only [List.mem_map, Prod.mk.injEq] at hp
    obtain ⟨p', hp', rfl, rfl⟩ := hp
    have := (hT.mem s p'.1 p'.2).1 hp'
    refine ⟨this.1, this.2, ?_⟩
    unfold sample coord
    rw [if_pos (by omega), if_pos (by omega)]
  have hfn : (((T.en s).map (fun p => (p, T.fetch p.1 p.2))).map Prod.fst).Nodup := by
    rw [List.map_map]
    exact (hT.nodup s).map (by intro a b h; exact h)
  unfold filterTexture points
  by_cases hr : s.inRange 0 T.w 0 T.h = true
  · rw [if_pos hr, List.append_nil]
    exact ⟨hfn, fun p v hp => ⟨(hfirst p v hp).1, (hfirst p v hp).2.2⟩⟩
  · rw [if_neg hr]
    have hsec : ∀ p v, (p, v) ∈ ((tileStarts T.w s.sx).flatMap fun tlX =>
          (tileStarts T.h s.sy).flatMap fun tlY =>
            if tlX = 0 ∧ tlY = 0 then [] else wrapped T s sw tw tlX tlY) →
        s.Mem p ∧ ¬ (0 ≤ p.1 ∧ p.1 < T.w ∧ 0 ≤ p.2 ∧ p.2 < T.h) ∧ v = sample T sw tw p.1 p.2 := by
      intro p v hp
      simp only [List.mem_flatMap] at hp
      obtain ⟨tlX, hX, tlY, hY, hp⟩ := hp
      split at hp
      · simp at hp
      · rename_i h0
        have qx := mem_tileStarts hw _ _ hX
        have qy := mem_tileStarts hh _ _ hY
        obtain ⟨a, b, c, d⟩ := (wrapped_spec T hT s sw tw hs ht tlX tlY qx qy h0).2.1 p v hp
        refine ⟨a, ?_, d⟩
        intro hin
        apply h0
        have ex := tile_unique hw qx b.1 b.2
        have ey := tile_unique hh qy c.1 c.2
        rw [Int.ediv_eq_zero_of_lt (by omega) (by omega)] at ex ey
        omega
    constructor
    · rw [List.map_append, List.nodup_append]
      refine ⟨hfn, ?_, ?_⟩
      · rw [List.map_flatMap]
        refine nodup_flatMap_of (nodup_tileStarts hw _) ?_ ?_
        · intro tlX hX
          rw [List.map_flatMap]
          refine nodup_flatMap_of (nodup_tileStarts hh _) ?_ ?_
          · intro tlY hY
            split
            · simp
            · rename_i h0
              exact (wrapped_spec T hT s sw tw hs ht tlX tlY (mem_tileStarts hw _ _ hX)
                (mem_tileStarts hh _ _ hY) h0).1
          · intro tlY hY tlY' hY' b hb hb'
            split at hb
            · simp at hb
            rename_i h0
            split at hb'
            · simp at hb'
            rename_i h0'
            simp only [List.mem_map] at hb hb'
            obtain ⟨⟨p, v⟩, hp, rfl⟩ := hb
            obtain ⟨⟨p', v'⟩, hp', h⟩ := hb'
            simp only at h
            subst h
            have q := mem_tileStarts hh _ _ hY
            have q' := mem_tileStarts hh _ _ hY'
            have qx := mem_tileStarts hw _ _ hX
            have r := ((wrapped_spec T hT s sw tw hs ht tlX tlY qx q h0).2.1 _ _ hp).2.2.1
            have r' := ((wrapped_spec T hT s sw tw hs ht tlX tlY' qx q' h0').2.1 _ _ hp').2.2.1
            rw [tile_unique hh q r.1 r.2, tile_unique hh q' r'.1 r'.2]
        · intro tlX hX tlX' hX' b hb hb'
          simp only [List.mem_map, List.mem_flatMap] at hb hb'
          obtain ⟨⟨p, v⟩, ⟨tlY, hY, hp⟩, rfl⟩ := hb
          obtain ⟨⟨p', v'⟩, ⟨tlY', hY', hp'⟩, h⟩ := hb'
          simp only at h
          subst h
          split at hp
          · simp at hp
          rename_i h0
          split at hp'
          · simp at hp'
          rename_i h0'
          have q := mem_tileStarts hw _ _ hX
          have q' := mem_tileStarts hw _ _ hX'
          have r := ((wrapped_spec T hT s sw tw hs ht tlX tlY q (mem_tileStarts hh _ _ hY) h0).2.1 _ _ hp).2.1
          have r' := ((wrapped_spec T hT s sw tw hs ht tlX' tlY' q' (mem_tileStarts hh _ _ hY') h0').2.1 _ _ hp').2.1
          rw [tile_unique hw q r.1 r.2, tile_unique hw q' r'.1 r'.2]
      · intro a ha b hb hab
        subst hab
        obtain ⟨⟨p, v⟩, hp, rfl⟩ := List.mem_map.1 ha
        obtain ⟨⟨p', v'⟩, hp', h⟩ := List.mem_map.1 hb
        simp only at h
        subst h
        exact (hsec _ _ hp').2.1 (hfirst _ _ hp).2.1
    · intro p v hp
      rcases List.mem_append.1 hp with h | h
      · exact ⟨(hfirst p v h).1, (hfirst p v h).2.2⟩
      · exact ⟨(hsec p v h).1, (hsec p v h).2.2⟩

/-- **C40, partial.**  Every point of the support is accumulated.  Missing: "trunc",
and clamping in one direction combined with repeating in the other. -/
theorem C40_complete_partial {S : Type} (T : Tex S) (hT : T.Ok) (s : Support) (sw tw : Mode)
    (hs : sw ≠ .trunc) (ht : tw ≠ .trunc) (hm : ¬ Mixed sw tw) (p : Int × Int) (hp : s.Mem p) :
    p ∈ points (filterTexture T s sw tw) := by
  have hw := hT.hw
  have hh := hT.hh
  unfold points filterTexture
  rw [List.map_append, List.mem_append]
  by_cases hin : 0 ≤ p.1 ∧ p.1 < T.w ∧ 0 ≤ p.2 ∧ p.2 < T.h
  · left
    rw [List.map_map]
    exact List.mem_map.2 ⟨p, (hT.mem s p.1 p.2).2 ⟨hp, hin⟩, rfl⟩
  · right
    have hr : ¬ s.inRange 0 T.w 0 T.h = true := by
      intro h
      apply hin
      unfold Support.inRange Support1D.inRange at h
      simp only [Bool.and_eq_true, decide_eq_true_eq] at h
      obtain ⟨h1, h2⟩ := hp
      unfold Support1D.Mem at h1 h2
      omega
    rw [if_neg hr]
    have hX := tileStarts_has hw s.sx p.1 hp.1
    have hY := tileStarts_has hh s.sy p.2 hp.2
    have bx := Int.ediv_mul_le p.1 (by omega : T.w ≠ 0)
    have bx' := Int.lt_ediv_add_one_mul_self p.1 hw
    have by' := Int.lt_ediv_add_one_mul_self p.2 hh
    have by_ := Int.ediv_mul_le p.2 (by omega : T.h ≠ 0)
    rw [Int.add_mul, Int.one_mul] at bx' by'
    have h0 : ¬ (p.1 / T.w * T.w = 0 ∧ p.2 / T.h * T.h = 0) := by
      rintro ⟨e1, e2⟩; apply hin; omega
    obtain ⟨v, hv⟩ := (wrapped_spec T hT s sw tw hs ht _ _ ⟨_, rfl⟩ ⟨_, rfl⟩ h0).2.2 hm p hp
      ⟨bx, bx'⟩ ⟨by_, by'⟩
    refine List.mem_map.2 ⟨(p, v), ?_, rfl⟩
    simp only [List.mem_flatMap]
    exact ⟨_, hX, _, hY, by rw [if_neg h0]; exact hv⟩

/-- A plain one-pixel texture. -/
def onePixel : Tex Nat where
  w := 1
  h := 1
  fetch := fun _ _ => 7
  black := 0
  en := fun s => if s.sx.start ≤ 0 ∧ 0 < s.sx.stop ∧ s.sy.start ≤ 0 ∧ 0 < s.sy.stop then [(0, 0)] else []

theorem onePixel_ok : onePixel.Ok where
  hw := by decide
  hh := by decide
  nodup := by intro s; unfold onePixel; simp only; split <;> simp
  mem := by
    intro s x y
    unfold onePixel Support.Mem Support1D.Mem
    simp only
    split
    · simp only [List.mem_singleton, Prod.mk.injEq]; omega
    · simp only [List.not_mem_nil, false_iff]; omega

example : filterTexture onePixel (Support.mk4 (-1) 1 (-1) 1) .periodic .periodic =
    [((0, 0), 7), ((-1, -1), 7), ((-1, 0), 7), ((0, -1), 7)] := by decide

/-- **C40** fails for clamping in x and repeating in y: the point (-1,-1) of the
support is never accumulated. -/
theorem C40_mixed_violated :
    ∃ T : Tex Nat, T.Ok ∧ (Support.mk4 (-1) 1 (-1) 1).Mem (-1, -1) ∧
      (-1, -1) ∉ points (filterTexture T (Support.mk4 (-1) 1 (-1) 1) .clamp .periodic) ∧
      (-1, -1) ∉ points (filterTexture T (Support.mk4 (-1) 1 (-1) 1) .periodic .clamp) :=
  ⟨onePixel, onePixel_ok, by unfold Support.Mem Support1D.Mem Support.mk4; decide, by decide, by decide⟩

/-- **C40** fails for "trunc" (truncate the support to the image): the point (-1,0),
outside the image, is accumulated, with the repeated image's value. -/
theorem C40_trunc_violated :
    ∃ T : Tex Nat, T.Ok ∧ T.w = 1 ∧
      ((-1, 0), 7) ∈ filterTexture T (Support.mk4 (-1) 1 (-1) 1) .trunc .trunc :=
  ⟨onePixel, onePixel_ok, rfl, by decide⟩

end Verif.Tex.Wrap
