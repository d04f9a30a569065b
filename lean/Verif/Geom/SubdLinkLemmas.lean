import Verif.Geom.SubdQuadLemmas
/-!
# Lemmas about the links of the laths of a facet that is subdivided
-/
set_option linter.unusedSectionVars false
namespace Verif.Geom.Subd
open Verif.Geom.Lath

/-- The vertices `V l`, `W l` and `F l` of the corner, the edge and the facet of the laths in `S`: each of them has its own. -/
structure Pts (m0 : Mesh) (S : Nat → Prop) (V W F : Nat → Nat) : Prop where
  vv : ∀ l x, S l → S x → (V l = V x ↔ Fan m0 l x)
  ww : ∀ l x, S l → S x → (W l = W x ↔ SameEdge m0 l x)
  ff : ∀ l x, S l → S x → (F l = F x ↔ SameFacet m0 l x)
  vw : ∀ l x, S l → S x → V l ≠ W x
  vf : ∀ l x, S l → S x → V l ≠ F x
  wf : ∀ l x, S l → S x → W l ≠ F x

/-- The laths of `m` from `m0.laths` on are four `g l`, … for each lath `l` in `S`, at the vertices of its corner, the next edge, the facet and the edge. -/
structure Kids (m0 : Mesh) (lo : Nat) (S : Nat → Prop) (g V W F : Nat → Nat) (m : Mesh) : Prop where
  lt : ∀ l, S l → l < m0.laths
  next : ∀ l, S l → S (m0.cf l)
  range : ∀ l, S l → m0.laths ≤ g l ∧ g l + 3 < m.laths
  inj : ∀ l x, S l → S x → ∀ r < 4, ∀ q < 4, g l + r = g x + q → l = x ∧ r = q
  cover : ∀ y, m0.laths ≤ y → y < m.laths → ∃ l, S l ∧ ∃ r < 4, y = g l + r
  cf : ∀ l, S l → ∀ r < 4, m.cf (g l + r) = g l + (r + 1) % 4
  va : ∀ l, S l → m.vert (g l) = V l
  vb : ∀ l, S l → m.vert (g l + 1) = W (m0.cf l)
  vc : ∀ l, S l → m.vert (g l + 2) = F l
  vd : ∀ l, S l → m.vert (g l + 3) = W l
  pts : Pts m0 S V W F
  vlo : ∀ l, S l → lo ≤ V l
  wlo : ∀ l, S l → lo ≤ W l
  atv : ∀ u, lo ≤ u → ∀ x, x ∈ m.atVert.getD u [] ↔ m0.laths ≤ x ∧ x < m.laths ∧ m.vert x = u

/-- The links that the laths shall have. -/
inductive T (m0 : Mesh) (S : Nat → Prop) (g : Nat → Nat) : Nat → Nat → Prop
  | a {l x : Nat} : S l → S x → m0.cv l = some x → T m0 S g (g l) (g x)
  | b {l x : Nat} : S l → S x → m0.ccv l = some x → T m0 S g (g l + 1) (g x + 3)
  | c {l : Nat} : S l → T m0 S g (g l + 2) (g (m0.cf l) + 2)
  | d {l : Nat} : S l → T m0 S g (g (m0.cf l) + 3) (g l + 1)

theorem T.inv {m0 : Mesh} {S : Nat → Prop} {g : Nat → Nat} {x y : Nat} (h : T m0 S g x y) : (∃ l k, S l ∧ S k ∧ m0.cv l = some k ∧ x = g l + 0 ∧ y = g k + 0) ∨
    (∃ l k, S l ∧ S k ∧ m0.ccv l = some k ∧ x = g l + 1 ∧ y = g k + 3) ∨ (∃ l, S l ∧ x = g l + 2 ∧ y = g (m0.cf l) + 2) ∨ (∃ l, S l ∧ x = g (m0.cf l) + 3 ∧ y = g l + 1) := by
  cases h with
  | a h1 h2 h3 => exact .inl ⟨_, _, h1, h2, h3, rfl, rfl⟩
  | b h1 h2 h3 => exact .inr (.inl ⟨_, _, h1, h2, h3, rfl, rfl⟩)
  | c h1 => exact .inr (.inr (.inl ⟨_, h1, rfl, rfl⟩))
  | d h1 => exact .inr (.inr (.inr ⟨_, h1, rfl, rfl⟩))

section
variable {m0 : Mesh} (O : Ok m0) (NL : NoLoop m0) {lo : Nat} {S : Nat → Prop} {g V W F : Nat → Nat}

section
variable {m : Mesh} (k : Kids m0 lo S g V W F m)
include O k

theorem T.of_a {l y : Nat} (hl : S l) (h : T m0 S g (g l) y) : ∃ x, S x ∧ m0.cv l = some x ∧ y = g x := by
  rcases h.inv with ⟨l', x, h1, h2, h3, h4, h5⟩ | ⟨l', x, h1, h2, h3, h4, h5⟩ | ⟨l', h1, h4, h5⟩ | ⟨l', h1, h4, h5⟩
  · have := k.inj _ _ hl h1 0 (by omega) 0 (by omega) h4
    exact ⟨x, h2, by rw [this.1]; exact h3, h5⟩
  · have := k.inj _ _ hl h1 0 (by omega) 1 (by omega) h4; omega
  · have := k.inj _ _ hl h1 0 (by omega) 2 (by omega) h4; omega
  · have := k.inj _ _ hl (k.next _ h1) 0 (by omega) 3 (by omega) h4; omega

theorem T.of_b {l y : Nat} (hl : S l) (h : T m0 S g (g l + 1) y) : ∃ x, S x ∧ m0.ccv l = some x ∧ y = g x + 3 := by
  rcases h.inv with ⟨l', x, h1, h2, h3, h4, h5⟩ | ⟨l', x, h1, h2, h3, h4, h5⟩ | ⟨l', h1, h4, h5⟩ | ⟨l', h1, h4, h5⟩
  · have := k.inj _ _ hl h1 1 (by omega) 0 (by omega) h4; omega
  · have := k.inj _ _ hl h1 1 (by omega) 1 (by omega) h4
    exact ⟨x, h2, by rw [this.1]; exact h3, h5⟩
  · have := k.inj _ _ hl h1 1 (by omega) 2 (by omega) h4; omega
  · have := k.inj _ _ hl (k.next _ h1) 1 (by omega) 3 (by omega) h4; omega

theorem T.of_c {l y : Nat} (hl : S l) (h : T m0 S g (g l + 2) y) : y = g (m0.cf l) + 2 := by
  rcases h.inv with ⟨l', x, h1, h2, h3, h4, h5⟩ | ⟨l', x, h1, h2, h3, h4, h5⟩ | ⟨l', h1, h4, h5⟩ | ⟨l', h1, h4, h5⟩
  · have := k.inj _ _ hl h1 2 (by omega) 0 (by omega) h4; omega
  · have := k.inj _ _ hl h1 2 (by omega) 1 (by omega) h4; omega
  · have := k.inj _ _ hl h1 2 (by omega) 2 (by omega) h4
    rw [this.1]; exact h5
  · have := k.inj _ _ hl (k.next _ h1) 2 (by omega) 3 (by omega) h4; omega

theorem T.of_d {l y : Nat} (hl : S l) (h : T m0 S g (g (m0.cf l) + 3) y) : y = g l + 1 := by
  have hl' := k.next _ hl
  rcases h.inv with ⟨l', x, h1, h2, h3, h4, h5⟩ | ⟨l', x, h1, h2, h3, h4, h5⟩ | ⟨l', h1, h4, h5⟩ | ⟨l', h1, h4, h5⟩
  · have := k.inj _ _ hl' h1 3 (by omega) 0 (by omega) h4; omega
  · have := k.inj _ _ hl' h1 3 (by omega) 1 (by omega) h4; omega
  · have := k.inj _ _ hl' h1 3 (by omega) 2 (by omega) h4; omega
  · have := k.inj _ _ hl' (k.next _ h1) 3 (by omega) 3 (by omega) h4
    rw [O.cf_inj _ (k.lt _ hl) _ (k.lt _ h1) this.1]; exact h5

theorem T.unique {x y z : Nat} (h : T m0 S g x y) (h' : T m0 S g x z) : y = z := by
  cases h with
  | a h1 h2 h3 =>
    obtain ⟨u, _, q1, q2⟩ := T.of_a O k h1 h'
    rw [h3] at q1; cases q1; exact q2.symm
  | b h1 h2 h3 =>
    obtain ⟨u, _, q1, q2⟩ := T.of_b O k h1 h'
    rw [h3] at q1; cases q1; exact q2.symm
  | c h1 => exact (T.of_c O k h1 h').symm
  | d h1 => exact (T.of_d O k h1 h').symm

theorem kids_cf0 {l : Nat} (hl : S l) : m.cf (g l) = g l + 1 ∧ m.cf (g l + 1) = g l + 2 ∧ m.cf (g l + 2) = g l + 3 ∧ m.cf (g l + 3) = g l :=
  ⟨k.cf l hl 0 (by omega), k.cf l hl 1 (by omega), k.cf l hl 2 (by omega), k.cf l hl 3 (by omega)⟩

theorem T.back {x y z : Nat} (h : T m0 S g x y) (h' : T m0 S g (m.cf y) z) : m.cf z = x := by
  cases h with
  | @a l u h1 h2 h3 =>
    rw [(kids_cf0 O k h2).1] at h'
    obtain ⟨w, q0, q1, rfl⟩ := T.of_b O k h2 h'
    rw [O.ccv_of_cv (k.lt _ h1) h3] at q1
    cases q1
    exact (kids_cf0 O k h1).2.2.2
  | @b l u h1 h2 h3 =>
    rw [(kids_cf0 O k h2).2.2.2] at h'
    obtain ⟨w, q0, q1, rfl⟩ := T.of_a O k h2 h'
    rw [O.cv_of_ccv (k.lt _ h1) h3] at q1
    cases q1
    exact (kids_cf0 O k h1).1
  | @c l h1 =>
    rw [(kids_cf0 O k (k.next _ h1)).2.2.1] at h'
    rw [T.of_d O k h1 h']
    exact (kids_cf0 O k h1).2.1
  | @d l h1 =>
    rw [(kids_cf0 O k h1).2.1] at h'
    rw [T.of_c O k h1 h']
    exact (kids_cf0 O k (k.next _ h1)).2.2.1

theorem T.back_ex {x y : Nat} (h : T m0 S g x y) : ∃ z, T m0 S g (m.cf y) z ∧ m.cf z = x := by
  cases h with
  | @a l u h1 h2 h3 =>
    rw [(kids_cf0 O k h2).1]
    exact ⟨_, .b h2 h1 (O.ccv_of_cv (k.lt _ h1) h3), (kids_cf0 O k h1).2.2.2⟩
  | @b l u h1 h2 h3 =>
    rw [(kids_cf0 O k h2).2.2.2]
    exact ⟨_, .a h2 h1 (O.cv_of_ccv (k.lt _ h1) h3), (kids_cf0 O k h1).1⟩
  | @c l h1 =>
    rw [(kids_cf0 O k (k.next _ h1)).2.2.1]
    exact ⟨_, .d h1, (kids_cf0 O k h1).2.1⟩
  | @d l h1 =>
    rw [(kids_cf0 O k h1).2.1]
    exact ⟨_, .c h1, (kids_cf0 O k (k.next _ h1)).2.2.1⟩

theorem T.vert {x y : Nat} (h : T m0 S g x y) : m.vert y = m.vert x := by
  cases h with
  | @a l u h1 h2 h3 =>
    rw [k.va _ h1, k.va _ h2]
    exact (k.pts.vv _ _ h2 h1).2 (.symm _ _ (.rel _ _ ⟨k.lt _ h1, h3⟩))
  | @b l u h1 h2 h3 =>
    rw [k.vb _ h1, k.vd _ h2]
    exact (k.pts.ww _ _ h2 (k.next _ h1)).2 (.inr (.inr h3))
  | @c l h1 =>
    rw [k.vc _ h1, k.vc _ (k.next _ h1)]
    exact (k.pts.ff _ _ (k.next _ h1) h1).2 (.symm _ _ (.rel _ _ ⟨k.lt _ h1, rfl⟩))
  | @d l h1 => rw [k.vb _ h1, k.vd _ (k.next _ h1)]

theorem T.range {x y : Nat} (h : T m0 S g x y) : (m0.laths ≤ x ∧ x < m.laths) ∧ m0.laths ≤ y ∧ y < m.laths := by
  cases h with
  | @a l u h1 h2 h3 => have := k.range _ h1; have := k.range _ h2; omega
  | @b l u h1 h2 h3 => have := k.range _ h1; have := k.range _ h2; omega
  | @c l h1 => have := k.range _ h1; have := k.range _ (k.next _ h1); omega
  | @d l h1 => have := k.range _ h1; have := k.range _ (k.next _ h1); omega

/-- Two laths at one vertex are joined by a link if one edge is at both sides. -/
theorem edge_iff (NL : NoLoop m0) {l x : Nat} (hl : l < m0.laths) (hx : x < m0.laths) (hf : Fan m0 l x) : SameEdge m0 (m0.cf x) l ↔ m0.cv l = some x := by
  constructor
  · rintro (h | h | h)
    · exact absurd (by rw [h, O.fan_vert hf]) (NL x hx)
    · exact O.cv_of_ccv hx h
    · simp only [Mesh.ec, Option.map_eq_some_iff] at h
      obtain ⟨z, h1, h2⟩ := h
      rw [h1, O.cf_inj _ (O.cv_lt _ hl _ h1) _ hx h2]
  · intro h
    exact .inr (.inr (O.ec_of_cv h))

end

/-- All links are as they shall be. -/
def Sound (m0 : Mesh) (S : Nat → Prop) (g : Nat → Nat) (m : Mesh) : Prop := ∀ x y, m0.laths ≤ x → x < m.laths → m.cv x = some y → T m0 S g x y

/-- `m'` has more links. -/
structure Lk (m0 : Mesh) (S : Nat → Prop) (g : Nat → Nat) (m m' : Mesh) : Prop where
  keep : m' = { m with cv := m'.cv }
  sound : Sound m0 S g m'
  old : ∀ x < m0.laths, m'.cv x = m.cv x
  mono : ∀ x y, m0.laths ≤ x → x < m.laths → m.cv x = some y → m'.cv x = some y

theorem Lk.refl {m : Mesh} (h : Sound m0 S g m) : Lk m0 S g m m := ⟨rfl, h, fun _ _ => rfl, fun _ _ _ _ h => h⟩

theorem Lk.laths {m m' : Mesh} (h : Lk m0 S g m m') : m'.laths = m.laths := by rw [h.keep]

theorem Lk.trans {m m' m'' : Mesh} (h : Lk m0 S g m m') (h' : Lk m0 S g m' m'') : Lk m0 S g m m'' := by
  refine ⟨?_, h'.sound, fun x hx => (h'.old x hx).trans (h.old x hx), fun x y h1 h2 h3 => h'.mono x y h1 (by rw [h.laths]; exact h2) (h.mono x y h1 h2 h3)⟩
  rw [h'.keep, h.keep]

theorem Kids.of_keep {m m' : Mesh} (k : Kids m0 lo S g V W F m) (e : m' = { m with cv := m'.cv }) : Kids m0 lo S g V W F m' := by
  rw [e]
  exact ⟨k.lt, k.next, k.range, k.inj, k.cover, k.cf, k.va, k.vb, k.vc, k.vd, k.pts, k.vlo, k.wlo, k.atv⟩

include O

theorem set_ok {m : Mesh} (k : Kids m0 lo S g V W F m) (hs : Sound m0 S g m) {x y : Nat} (h : T m0 S g x y) : Lk m0 S g m (m.setCv x y) ∧ (m.setCv x y).cv x = some y := by
  have hx := (h.range O k).1
  refine ⟨⟨rfl, ?_, ?_, ?_⟩, by simp [Mesh.setCv]⟩
  · intro u w h1 h2 h3
    simp only [Mesh.setCv] at h3
    by_cases hu : u = x
    · subst hu
      rw [Function.update_self] at h3
      cases h3
      exact h
    · rw [Function.update_of_ne hu] at h3
      exact hs u w h1 h2 h3
  · intro u hu
    simp only [Mesh.setCv]
    rw [Function.update_of_ne (by omega)]
  · intro u w h1 h2 h3
    simp only [Mesh.setCv]
    by_cases hu : u = x
    · subst hu
      rw [Function.update_self, (hs u w h1 h2 h3).unique O k h]
    · rw [Function.update_of_ne hu]; exact h3

theorem ccf_kid {m : Mesh} (k : Kids m0 lo S g V W F m) (hs : Sound m0 S g m) {l : Nat} (hl : S l) {r : Nat} (hr : r < 4) : m.ccf (g l + r) = some (g l + (r + 3) % 4) := by
  have hrg := k.range l hl
  have hcf := k.cf l hl
  cases e : (m.ec (g l + r)).bind m.cv with
  | some w =>
    simp only [Mesh.ccf, e]
    simp only [Option.bind_eq_some_iff, Mesh.ec, Option.map_eq_some_iff] at e
    obtain ⟨_, ⟨y, h1, rfl⟩, h2⟩ := e
    have t1 := hs _ _ (by omega) (by omega) h1
    have ry := (t1.range O k).2
    have : m0.laths ≤ m.cf y ∧ m.cf y < m.laths := by
      obtain ⟨l', hl', q, hq, rfl⟩ := k.cover y ry.1 ry.2
      rw [k.cf l' hl' q hq]
      have := k.range l' hl'
      omega
    have t2 := hs _ _ this.1 this.2 h2
    have e1 := t1.back O k t2
    have rw' := (t2.range O k).2
    obtain ⟨l', hl', q, hq, rfl⟩ := k.cover w rw'.1 rw'.2
    rw [k.cf l' hl' q hq] at e1
    obtain ⟨e2, e3⟩ := k.inj l' l hl' hl _ (Nat.mod_lt _ (by omega)) r hr e1
    subst e2
    congr 2
    omega
  | none =>
    simp only [Mesh.ccf, e]
    obtain ⟨n, hn⟩ : ∃ n, m.laths + 1 = n + 3 := ⟨m.laths - 2, by omega⟩
    rw [hn, hcf r hr, Mesh.ccfLoop, hcf _ (Nat.mod_lt _ (by omega)), if_neg (by omega), Mesh.ccfLoop, hcf _ (Nat.mod_lt _ (by omega)), if_neg (by omega),
      Mesh.ccfLoop, hcf _ (Nat.mod_lt _ (by omega)), if_pos (by omega)]
    congr 2
    omega

omit O in
theorem foldM_ok {f : Mesh → Nat → Option Mesh} {post : Nat → Mesh → Prop} {L : List Nat}
    (hmono : ∀ x ∈ L, ∀ m m', Kids m0 lo S g V W F m → Lk m0 S g m m' → post x m → post x m') (hstep : ∀ x ∈ L, ∀ m, Kids m0 lo S g V W F m → Sound m0 S g m →
      ∃ m', f m x = some m' ∧ Lk m0 S g m m' ∧ post x m') :
    ∀ m, Kids m0 lo S g V W F m → Sound m0 S g m → ∃ m', L.foldlM f m = some m' ∧ Lk m0 S g m m' ∧ ∀ x ∈ L, post x m' := by
  induction L with
  | nil => exact fun m _ hs => ⟨m, rfl, Lk.refl hs, by simp⟩
  | cons x L ih =>
    intro m k hs
    obtain ⟨m1, e1, h1, p1⟩ := hstep x (by simp) m k hs
    obtain ⟨m2, e2, h2, p2⟩ := ih (fun y hy => hmono y (by simp [hy])) (fun y hy => hstep y (by simp [hy])) m1 (k.of_keep h1.keep) h1.sound
    refine ⟨m2, by rw [List.foldlM_cons, e1]; exact e2, h1.trans h2, ?_⟩
    intro y hy
    rcases List.mem_cons.1 hy with rfl | hy
    · exact hmono y (by simp) m1 m2 (k.of_keep h1.keep) h2 p1
    · exact p2 y hy

include NL

theorem linkCorner_ok {m : Mesh} (k : Kids m0 lo S g V W F m) (hs : Sound m0 S g m) {l : Nat} (hl : S l) :
    ∃ m', linkCorner m (g l) = some m' ∧ Lk m0 S g m m' ∧ ∀ x, S x → (m0.cv l = some x → m'.cv (g l) = some (g x)) ∧ (m0.cv x = some l → m'.cv (g x) = some (g l)) := by
  have hmem : ∀ y, y ∈ m.atVert.getD (m.vert (g l)) [] ↔ ∃ x, S x ∧ y = g x ∧ Fan m0 l x := by
    intro y
    rw [k.va l hl, k.atv _ (k.vlo l hl)]
    constructor
    · rintro ⟨h1, h2, h3⟩
      obtain ⟨x, hx, r, hr, rfl⟩ := k.cover y h1 h2
      have : r = 0 ∨ r = 1 ∨ r = 2 ∨ r = 3 := by omega
      rcases this with rfl | rfl | rfl | rfl
      · rw [Nat.add_zero, k.va x hx] at h3
        exact ⟨x, hx, rfl, (k.pts.vv l x hl hx).1 h3.symm⟩
      · rw [k.vb x hx] at h3; exact absurd h3.symm (k.pts.vw _ _ hl (k.next _ hx))
      · rw [k.vc x hx] at h3; exact absurd h3.symm (k.pts.vf _ _ hl hx)
      · rw [k.vd x hx] at h3; exact absurd h3.symm (k.pts.vw _ _ hl hx)
    · rintro ⟨x, hx, rfl, hf⟩
      have := k.range x hx
      exact ⟨by omega, by omega, by rw [k.va x hx]; exact ((k.pts.vv l x hl hx).2 hf).symm⟩
  have key := foldM_ok (L := m.atVert.getD (m.vert (g l)) []) (m0 := m0) (lo := lo) (S := S) (g := g) (V := V) (W := W) (F := F)
    (f := fun m x =>
      let m := if m.vert (m.cf x) = m.vert (g l + 3) then m.setCv (g l) x else m
      (m.ccf x).map fun y => if m.vert y = m.vert (g l + 1) then m.setCv x (g l) else m)
    (post := fun y m' => ∀ x, S x → y = g x → (m0.cv l = some x → m'.cv (g l) = some (g x)) ∧ (m0.cv x = some l → m'.cv (g x) = some (g l))) ?_ ?_ m k hs
  · obtain ⟨m', e, h1, h2⟩ := key
    refine ⟨m', e, h1, fun x hx => ⟨fun h => ?_, fun h => ?_⟩⟩
    · exact (h2 (g x) ((hmem _).2 ⟨x, hx, rfl, .rel _ _ ⟨k.lt _ hl, h⟩⟩) x hx rfl).1 h
    · exact (h2 (g x) ((hmem _).2 ⟨x, hx, rfl, .symm _ _ (.rel _ _ ⟨k.lt _ hx, h⟩)⟩) x hx rfl).2 h
  · intro y _ m1 m2 k1 h p x hx hy
    have r1 := k1.range l hl
    have r2 := k1.range x hx
    exact ⟨fun e => h.mono _ _ (by omega) (by omega) ((p x hx hy).1 e), fun e => h.mono _ _ (by omega) (by omega) ((p x hx hy).2 e)⟩
  · intro y hy m1 k1 hs1
    obtain ⟨x, hx, rfl, hf⟩ := (hmem y).1 hy
    have c1 : m1.vert (m1.cf (g x)) = m1.vert (g l + 3) ↔ m0.cv l = some x := by
      rw [(kids_cf0 O k1 hx).1, k1.vb x hx, k1.vd l hl, k1.pts.ww _ _ (k1.next _ hx) hl]
      exact edge_iff O k1 NL (k.lt _ hl) (k.lt _ hx) hf
    obtain ⟨m2, e2, h2, p2⟩ : ∃ m2, (if m1.vert (m1.cf (g x)) = m1.vert (g l + 3) then m1.setCv (g l) (g x) else m1) = m2 ∧ Lk m0 S g m1 m2 ∧ (m0.cv l = some x → m2.cv (g l) = some (g x)) := by
      by_cases c : m1.vert (m1.cf (g x)) = m1.vert (g l + 3)
      · rw [if_pos c]
        have := set_ok O k1 hs1 (.a hl hx (c1.1 c))
        exact ⟨_, rfl, this.1, fun _ => this.2⟩
      · rw [if_neg c]
        exact ⟨_, rfl, Lk.refl hs1, fun h => absurd (c1.2 h) c⟩
    have k2 := k1.of_keep h2.keep
    have hs2 := h2.sound
    have hcc := ccf_kid O k2 hs2 hx (r := 0) (by omega)
    have c2 : m2.vert (g x + 3) = m2.vert (g l + 1) ↔ m0.cv x = some l := by
      rw [k2.vd x hx, k2.vb l hl]
      have h := edge_iff O k2 NL (k.lt _ hx) (k.lt _ hl) (.symm _ _ hf)
      have h' := k2.pts.ww _ _ (k2.next _ hl) hx
      rw [← h, ← h']
      exact eq_comm
    simp only [e2]
    rw [Nat.add_zero] at hcc
    rw [hcc]
    simp only [Option.map_some, Nat.zero_add, Nat.mod_eq_of_lt (show 3 < 4 by omega)]
    have r1 := k2.range l hl
    by_cases c : m2.vert (g x + 3) = m2.vert (g l + 1)
    · rw [if_pos c]
      have h3 := set_ok O k2 hs2 (.a hx hl (c2.1 c))
      refine ⟨_, rfl, h2.trans h3.1, ?_⟩
      intro x' hx' e'
      have := (k1.inj x x' hx hx' 0 (by omega) 0 (by omega) e').1
      subst this
      exact ⟨fun e => h3.1.mono _ _ (by omega) (by omega) (p2 e), fun _ => h3.2⟩
    · rw [if_neg c]
      refine ⟨_, rfl, h2, ?_⟩
      intro x' hx' e'
      have := (k1.inj x x' hx hx' 0 (by omega) 0 (by omega) e').1
      subst this
      exact ⟨p2, fun e => absurd (c2.2 e) c⟩

theorem linkFacet_ok {m : Mesh} (k : Kids m0 lo S g V W F m) (hs : Sound m0 S g m) {l : Nat} (hl : S l) :
    ∃ m', linkFacet m (g l) (g (m0.cf l)) = some m' ∧ Lk m0 S g m m' ∧ (∀ x, S x → (m0.cv l = some x → m'.cv (g l) = some (g x)) ∧ (m0.cv x = some l → m'.cv (g x) = some (g l))) ∧
      m'.cv (g l + 2) = some (g (m0.cf l) + 2) ∧ m'.cv (g (m0.cf l) + 3) = some (g l + 1) := by
  obtain ⟨h1, p1⟩ := set_ok O k hs (.d hl)
  have k1 := k.of_keep h1.keep
  obtain ⟨h2, p2⟩ := set_ok O k1 h1.sound (.c hl)
  have k2 := k1.of_keep h2.keep
  obtain ⟨m', e, h3, p3⟩ := linkCorner_ok O NL k2 h2.sound hl
  have r1 := k.range l hl
  have r2 := k.range _ (k.next l hl)
  have q1 := h1.laths
  have q2 := h2.laths
  refine ⟨m', e, (h1.trans h2).trans h3, p3, h3.mono _ _ (by omega) (by omega) p2, h3.mono _ _ (by omega) (by omega) (h2.mono _ _ (by omega) (by omega) p1)⟩

omit NL in
theorem mem_mid {m : Mesh} (k : Kids m0 lo S g V W F m) {l : Nat} (hl : S l) (y : Nat) :
    y ∈ m.atVert.getD (W l) [] ↔ (∃ x, S x ∧ y = g x + 3 ∧ SameEdge m0 x l) ∨ ∃ x, S x ∧ y = g x + 1 ∧ SameEdge m0 (m0.cf x) l := by
  rw [k.atv _ (k.wlo l hl)]
  constructor
  · rintro ⟨h1, h2, h3⟩
    obtain ⟨x, hx, r, hr, rfl⟩ := k.cover y h1 h2
    have : r = 0 ∨ r = 1 ∨ r = 2 ∨ r = 3 := by omega
    rcases this with rfl | rfl | rfl | rfl
    · rw [Nat.add_zero, k.va x hx] at h3; exact absurd h3 (k.pts.vw _ _ hx hl)
    · rw [k.vb x hx] at h3; exact .inr ⟨x, hx, rfl, (k.pts.ww _ _ (k.next _ hx) hl).1 h3⟩
    · rw [k.vc x hx] at h3; exact absurd h3.symm (k.pts.wf _ _ hl hx)
    · rw [k.vd x hx] at h3; exact .inl ⟨x, hx, rfl, (k.pts.ww _ _ hx hl).1 h3⟩
  · rintro (⟨x, hx, rfl, h⟩ | ⟨x, hx, rfl, h⟩)
    · have := k.range x hx
      exact ⟨by omega, by omega, by rw [k.vd x hx]; exact (k.pts.ww _ _ hx hl).2 h⟩
    · have := k.range x hx
      exact ⟨by omega, by omega, by rw [k.vb x hx]; exact (k.pts.ww _ _ (k.next _ hx) hl).2 h⟩

omit O NL in
theorem foldl_eq_foldlM {α β : Type} (f : β → α → β) : ∀ (L : List α) (b : β), L.foldlM (fun b a => some (f b a)) b = some (L.foldl f b)
  | [], _ => rfl
  | x :: L, b => by rw [List.foldlM_cons]; exact foldl_eq_foldlM f L _

theorem linkMid_ok {m : Mesh} (k : Kids m0 lo S g V W F m) (hs : Sound m0 S g m) {l : Nat} (hl : S l) :
    ∃ m', linkMid m (g l) = some m' ∧ Lk m0 S g m m' ∧ ∀ x, S x → (m0.ccv l = some x → m'.cv (g l + 1) = some (g x + 3)) ∧ (m0.ccv x = some l → m'.cv (g x + 1) = some (g l + 3)) := by
  have hmem1 : ∀ y, y ∈ m.atVert.getD (m.vert (g l + 1)) [] ↔ (∃ x, S x ∧ y = g x + 3 ∧ SameEdge m0 x (m0.cf l)) ∨ ∃ x, S x ∧ y = g x + 1 ∧ SameEdge m0 (m0.cf x) (m0.cf l) := fun y => by rw [k.vb l hl]; exact mem_mid O k (k.next _ hl) y
  have key1 := foldM_ok (L := m.atVert.getD (m.vert (g l + 1)) []) (m0 := m0) (lo := lo) (S := S) (g := g) (V := V) (W := W) (F := F)
    (f := fun m x => some (if m.vert (m.cf x) = m.vert (g l) then m.setCv (g l + 1) x else m))
    (post := fun y m' => ∀ x, S x → y = g x + 3 → m0.ccv l = some x → m'.cv (g l + 1) = some (g x + 3)) ?_ ?_ m k hs
  rotate_left
  · intro y _ m1 m2 k1 h p x hx hy e
    have r1 := k1.range l hl
    exact h.mono _ _ (by omega) (by omega) (p x hx hy e)
  · intro y hy m1 k1 hs1
    rcases (hmem1 y).1 hy with ⟨x, hx, rfl, hf⟩ | ⟨x, hx, rfl, hf⟩
    · have c1 : m1.vert (m1.cf (g x + 3)) = m1.vert (g l) ↔ m0.ccv l = some x := by
        rw [(kids_cf0 O k1 hx).2.2.2, k1.va x hx, k1.va l hl, k1.pts.vv _ _ hx hl]
        constructor
        · intro hf2
          have hf' : SameEdge m0 (m0.cf l) x := by
            rcases hf with h | h | h
            · exact .inl h.symm
            · exact .inr (.inr h)
            · exact .inr (.inl h)
          exact O.ccv_of_cv (k.lt _ hx) ((edge_iff O k1 NL (k.lt _ hx) (k.lt _ hl) hf2).1 hf')
        · intro h
          exact .rel _ _ ⟨k.lt _ hx, O.cv_of_ccv (k.lt _ hl) h⟩
      by_cases c : m1.vert (m1.cf (g x + 3)) = m1.vert (g l)
      · rw [if_pos c]
        have := set_ok O k1 hs1 (.b hl hx (c1.1 c))
        refine ⟨_, rfl, this.1, fun x' hx' e' _ => ?_⟩
        have h := (k1.inj x x' hx hx' 3 (by omega) 3 (by omega) e').1
        subst h
        exact this.2
      · rw [if_neg c]
        refine ⟨_, rfl, Lk.refl hs1, fun x' hx' e' h' => ?_⟩
        have h := (k1.inj x x' hx hx' 3 (by omega) 3 (by omega) e').1
        subst h
        exact absurd (c1.2 h') c
    · have c : ¬ m1.vert (m1.cf (g x + 1)) = m1.vert (g l) := by
        rw [(kids_cf0 O k1 hx).2.1, k1.vc x hx, k1.va l hl]
        exact (k1.pts.vf _ _ hl hx).symm
      rw [if_neg c]
      refine ⟨_, rfl, Lk.refl hs1, fun x' hx' e' _ => ?_⟩
      have h := (k1.inj x x' hx hx' 1 (by omega) 3 (by omega) e').2
      omega
  obtain ⟨m1, e1, h1, p1⟩ := key1
  rw [foldl_eq_foldlM] at e1
  have k1 := k.of_keep h1.keep
  have hmem2 : ∀ y, y ∈ m1.atVert.getD (m1.vert (g l + 3)) [] ↔ (∃ x, S x ∧ y = g x + 3 ∧ SameEdge m0 x l) ∨ ∃ x, S x ∧ y = g x + 1 ∧ SameEdge m0 (m0.cf x) l := fun y => by rw [k1.vd l hl]; exact mem_mid O k1 hl y
  have key2 := foldM_ok (L := m1.atVert.getD (m1.vert (g l + 3)) []) (m0 := m0) (lo := lo) (S := S) (g := g) (V := V) (W := W) (F := F)
    (f := fun m x => (m.ccf x).map fun y => if m.vert y = m.vert (g l) then m.setCv x (g l + 3) else m)
    (post := fun y m' => ∀ x, S x → y = g x + 1 → m0.ccv x = some l → m'.cv (g x + 1) = some (g l + 3)) ?_ ?_ m1 k1 h1.sound
  rotate_left
  · intro y _ m1 m2 k1 h p x hx hy e
    have r1 := k1.range x hx
    exact h.mono _ _ (by omega) (by omega) (p x hx hy e)
  · intro y hy m2 k2 hs2
    rcases (hmem2 y).1 hy with ⟨x, hx, rfl, hf⟩ | ⟨x, hx, rfl, hf⟩
    · have hcc := ccf_kid O k2 hs2 hx (r := 3) (by omega)
      simp only [hcc, Option.map_some]
      have c : ¬ m2.vert (g x + 2) = m2.vert (g l) := by
        rw [k2.vc x hx, k2.va l hl]
        exact (k2.pts.vf _ _ hl hx).symm
      rw [if_neg (by simpa using c)]
      refine ⟨_, rfl, Lk.refl hs2, fun x' hx' e' _ => ?_⟩
      have h := (k2.inj x x' hx hx' 3 (by omega) 1 (by omega) e').2
      omega
    · have hcc := ccf_kid O k2 hs2 hx (r := 1) (by omega)
      simp only [hcc, Option.map_some]
      have hz : g x + (1 + 3) % 4 = g x := by omega
      rw [hz]
      have c1 : m2.vert (g x) = m2.vert (g l) ↔ m0.ccv x = some l := by
        rw [k2.va x hx, k2.va l hl, k2.pts.vv _ _ hx hl]
        constructor
        · intro hf2
          exact O.ccv_of_cv (k.lt _ hl) ((edge_iff O k2 NL (k.lt _ hl) (k.lt _ hx) (.symm _ _ hf2)).1 hf)
        · intro h
          exact .symm _ _ (.rel _ _ ⟨k.lt _ hl, O.cv_of_ccv (k.lt _ hx) h⟩)
      by_cases c : m2.vert (g x) = m2.vert (g l)
      · rw [if_pos c]
        have := set_ok O k2 hs2 (.b hx hl (c1.1 c))
        refine ⟨_, rfl, this.1, fun x' hx' e' _ => ?_⟩
        have h := (k2.inj x x' hx hx' 1 (by omega) 1 (by omega) e').1
        subst h
        exact this.2
      · rw [if_neg c]
        refine ⟨_, rfl, Lk.refl hs2, fun x' hx' e' h' => ?_⟩
        have h := (k2.inj x x' hx hx' 1 (by omega) 1 (by omega) e').1
        subst h
        exact absurd (c1.2 h') c
  obtain ⟨m2, e2, h2, p2⟩ := key2
  have r1 := k1.range l hl
  refine ⟨m2, ?_, h1.trans h2, fun x hx => ⟨fun e => ?_, fun e => ?_⟩⟩
  · simp only [linkMid]
    rw [Option.some.inj e1]
    exact e2
  · refine h2.mono _ _ (by omega) (by omega) (p1 (g x + 3) ((hmem1 _).2 (.inl ⟨x, hx, rfl, .inr (.inr e)⟩)) x hx rfl e)
  · refine p2 (g x + 1) ((hmem2 _).2 (.inr ⟨x, hx, rfl, .inr (.inl e)⟩)) x hx rfl e

end
end Verif.Geom.Subd
