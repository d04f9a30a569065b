import Verif.Shader.TypesSound

/-
Lemmas for property C78: which casts are written, and that nothing is undefined.
-/
set_option linter.unusedSectionVars false
set_option linter.unusedSimpArgs false

namespace Verif.Shader.Types

/-- A cast for which there is an instruction, or none needed. -/
def CastOk (t u : Ty) : Prop :=
  t = u ∨ (pointLike t = true ∧ pointLike u = true) ∨ Known (.set t u)

/-- All casts in the code of an expression are known. -/
def Sets (e : Expr) : Prop :=
  ∀ c, gen e = .ok c → ∀ a b, Instr.set a b ∈ c → Known (.set a b)

theorem sets_cast (t u : Ty) (e : Expr) (hr : resType (opt e) = .ok t) (hs : Sets (opt e))
    (hc : CastOk t u) : Sets (opt (.cast u e)) := by
  show Sets (if resType (opt e) = .ok u then opt e else .cast u (opt e))
  split
  · exact hs
  · rename_i hn
    rw [hr] at hn
    intro c h a b hm
    simp only [gen] at h
    obtain ⟨v, hv, h⟩ := bind_ok h
    rw [hr] at hv
    injection hv with hv
    subst hv
    obtain ⟨c1, hc1, h⟩ := bind_ok h
    split at h
    · injection h with h
      subst h
      exact hs _ hc1 a b hm
    · rename_i hp
      injection h with h
      subst h
      rw [List.mem_append] at hm
      rcases hm with hm | hm
      · exact hs _ hc1 a b hm
      · simp only [List.mem_singleton] at hm
        injection hm with h1 h2
        subst h1
        subst h2
        rcases hc with hc | hc | hc
        · exact absurd (by rw [hc]) hn
        · exact absurd hc hp
        · exact hc

theorem castLoop_pri (c : Ty) (ts : List Ty) (r : Ty) (p : Nat) :
    castLoop c ts r p = r ∨ pri c (castLoop c ts r p) ≠ 0 := by
  induction ts generalizing r p with
  | nil => left; rfl
  | cons t ts ih =>
    simp only [castLoop]
    split
    · rename_i h
      rcases ih t (pri c t) with h1 | h1
      · right; rw [h1]; omega
      · right; exact h1
    · exact ih r p

theorem findCast_pri (c : Ty) (ts : List Ty) (h : findCast c ts ≠ .nil) :
    (c ∈ ts ∧ findCast c ts = c) ∨ pri c (findCast c ts) ≠ 0 := by
  unfold findCast at h ⊢
  split
  · rename_i hm; exact .inl ⟨hm, rfl⟩
  · rename_i hn
    rw [if_neg hn] at h
    rcases castLoop_pri c ts .nil 0 with h1 | h1
    · exact absurd h1 h
    · exact .inr h1

/-- Types which may be asked for. -/
def TsOk (ts : List Ty) : Prop := ts = all ∨ ∀ t ∈ ts, Plain t ∨ t = .void

theorem castOk_of_pri (t u : Ty) (ht : Plain t ∨ t = .void ∨ t = .triple) (hu : Plain u ∨ u = .void)
    (h : pri t u ≠ 0) : CastOk t u := by
  revert ht hu h
  cases t <;> cases u <;> simp [Plain, pri, CastOk, pointLike, Known]

theorem all_complete (t : Ty) (h : t ≠ .nil) : t ∈ all := by
  cases t <;> simp_all [all]

theorem castOk_find (t : Ty) (ts : List Ty) (ht : Plain t ∨ t = .void ∨ t = .triple)
    (hts : TsOk ts) (h : findCast t ts ≠ .nil) : CastOk t (findCast t ts) := by
  have hn : t ≠ .nil := by rintro rfl; simp [Plain] at ht
  rcases findCast_pri t ts h with ⟨_, h1⟩ | h1
  · exact .inl h1.symm
  · rcases hts with rfl | hts
    · left
      unfold findCast
      rw [if_pos (all_complete t hn)]
    · exact castOk_of_pri _ _ ht (hts _ (findCast_mem _ _ h)) h1

theorem sets_conv (ts : List Ty) (t : Ty) (e : Expr) (r : Ty × Expr) (h : conv ts t e = .ok r)
    (ht : Plain t ∨ t = .void ∨ t = .triple) (hts : TsOk ts)
    (hr : resType (opt e) = .ok t) (hs : Sets (opt e)) : Sets (opt r.2) := by
  unfold conv at h
  split at h
  · injection h with h
    subst h
    exact hs
  · split at h
    · simp at h
    · rename_i hn
      injection h with h
      subst h
      exact sets_cast t _ e hr hs (castOk_find t ts ht hts hn)

/-- The types which an expression can say it has. -/
def ValueTy (t : Ty) : Prop :=
  Plain t ∨ t = .void ∨ t = .hpoint ∨ t = .triple ∨ t = .hextuple

theorem fine_resType (e : Expr) (t : Ty) (hf : Fine .expr e) (h : resType e = .ok t) :
    ValueTy t := by
  cases e with
  | num => injection h with h; subst h; simp [ValueTy, Plain]
  | str => injection h with h; subst h; simp [ValueTy, Plain]
  | var u => injection h with h; subst h; exact .inl hf
  | elem u i => injection h with h; subst h; exact .inl hf.1
  | assign u x => injection h with h; subst h; exact .inl hf.1
  | cond c a b =>
    have : resType (.cond c a b) = .ok .float := rel_resType c hf.1
    rw [this] at h
    injection h with h; subst h; simp [ValueTy, Plain]
  | cast u x => injection h with h; subst h; exact .inl hf.1
  | triple a b c => injection h with h; subst h; simp [ValueTy]
  | hex args => injection h with h; subst h; simp [ValueTy]
  | call fs args =>
    cases fs with
    | nil => simp [resType] at h
    | cons f fs =>
      injection h with h
      subst h
      rcases (hf.2 f (by simp)).1 with h | h | h
      · exact .inl h
      · exact .inr (.inl h)
      · exact .inr (.inr (.inl h))
  | _ => simp [Fine] at hf

theorem common_all (a b t : Ty) (ha : ValueTy a) (hb : ValueTy b) (h : common a b all = some t) :
    Plain t ∨ t = .void := by
  have key : ∀ a ∈ all, ∀ b ∈ all, ∀ t ∈ all, ValueTy a → ValueTy b → common a b all = some t →
      Plain t ∨ t = .void := by
    unfold ValueTy
    decide +kernel
  have na : a ≠ .nil := by rintro rfl; simp [ValueTy, Plain] at ha
  have nb : b ≠ .nil := by rintro rfl; simp [ValueTy, Plain] at hb
  exact key a (all_complete a na) b (all_complete b nb) t (common_mem _ _ _ _ h) ha hb h

theorem tsOk_one (t : Ty) (h : Plain t ∨ t = .void) : TsOk [t] := by
  right
  intro u hu
  simp only [List.mem_singleton] at hu
  subst hu
  exact h

theorem simple_sets (k : Option Ty) (e : Expr) (h : Simple k e) : Sets e := by
  cases e with
  | num | str | var t =>
    intro c hc a b hm
    simp only [gen, Res.ok.injEq] at hc
    subst hc
    simp at hm
  | _ => exact absurd h (by simp [Simple])

theorem sets_cons (e r : Expr) (he : Sets e) (hr : Sets r) : Sets (.cons e r) := by
  intro c hc a b hm
  simp only [gen] at hc
  obtain ⟨cr, hcr, hc⟩ := bind_ok hc
  obtain ⟨ce, hce, hc⟩ := bind_ok hc
  injection hc with hc
  subst hc
  rw [List.mem_append] at hm
  rcases hm with hm | hm
  · exact hr _ hcr _ _ hm
  · exact he _ hce _ _ hm

theorem rest_sets (k : Option Ty) (e : Expr) (hf : Fine .list e) (h : SimpleAfter k 0 e) :
    Sets (opt (prune e)) := by
  induction e with
  | nil =>
    intro c hc a b hm
    simp only [prune, opt, gen, Res.ok.injEq] at hc
    subst hc
    simp at hm
  | cons e r _ ih =>
    obtain ⟨h1, _⟩ := simple_leaves k e h.1
    show Sets (.cons (opt (prune e)) (opt (prune r)))
    rw [h1]
    exact sets_cons _ _ (simple_sets k e h.1) (ih hf.2 h.2)
  | _ => simp [Fine] at hf

/-- What the second induction proves. -/
structure Main2 (e : Expr) : Prop where
  expr : Fine .expr e → ∀ ts us r, TsOk ts → (∀ t ∈ us, t ∈ ts) → check ts e = .ok r →
    Settled us r.2 → Apt r.2 → Sets (opt r.2)
  rel : Fine .rel e → ∀ ts r, (ts = all ∨ ts = [.float]) → check ts e = .ok r → Settled [] r.2 →
    Apt r.2 → Sets (opt r.2)
  list : Fine .list e → ∀ ps r k, (∀ t ∈ ps, Plain t) → check ps e = .ok r → Settled ps r.2 →
    ps.length ≤ e.len → SimpleAfter k ps.length r.2 → Apt r.2 → Sets (opt r.2)

theorem sets_app (e : Expr) (x : List Instr) (hx : ∀ a b, Instr.set a b ∉ x) (y : List Instr)
    (hs : Sets e) (hy : gen e = .ok y) (a b : Ty) (h : Instr.set a b ∈ y ++ x) :
    Known (.set a b) := by
  rw [List.mem_append] at h
  rcases h with h | h
  · exact hs _ hy _ _ h
  · exact absurd h (hx a b)

theorem main_sets (e : Expr) : Main2 e := by
  induction e with
  | num =>
    refine ⟨?_, fun h => by simp [Fine] at h, fun h => by simp [Fine] at h⟩
    intro hf ts us r hts _ h _ _
    refine sets_conv ts _ _ r h (.inl (by simp [Plain])) hts rfl ?_
    exact simple_sets none .num (.inl rfl)
  | str =>
    refine ⟨?_, fun h => by simp [Fine] at h, fun h => by simp [Fine] at h⟩
    intro hf ts us r hts _ h _ _
    refine sets_conv ts _ _ r h (.inl (by simp [Plain])) hts rfl ?_
    exact simple_sets none .str (.inl rfl)
  | var t =>
    refine ⟨?_, fun h => by simp [Fine] at h, fun h => by simp [Fine] at h⟩
    intro hf ts us r hts _ h _ _
    refine sets_conv ts _ _ r h (.inl hf) hts rfl ?_
    exact simple_sets none (.var t) ⟨hf, .inl rfl⟩
  | elem t i ih =>
    refine ⟨?_, fun h => by simp [Fine] at h, fun h => by simp [Fine] at h⟩
    intro hf ts us r hts _ h hs hn
    simp only [check] at h
    obtain ⟨x, hx, h⟩ := bind_ok h
    split at h
    · simp at h
    · have hsi : Settled [.float] x.2 := settled_conv ts us us t (.elem t x.2) r h hs (fun _ h => h)
      have hi := ih.expr hf.2 _ [.float] x (tsOk_one _ (.inl (by simp [Plain]))) (fun _ h => h) hx hsi
        (apt_conv ts _ (.elem t x.2) r h hn)
      refine sets_conv ts _ _ r h (.inl hf.1) hts rfl ?_
      intro c hc a b hm
      simp only [opt, gen] at hc
      obtain ⟨c1, hc1, hc⟩ := bind_ok hc
      injection hc with hc
      subst hc
      exact sets_app _ _ (by simp) _ hi hc1 a b hm
  | assign t e ih =>
    refine ⟨?_, fun h => by simp [Fine] at h, fun h => by simp [Fine] at h⟩
    intro hf ts us r hts hus h hs hn
    simp only [check] at h
    obtain ⟨x, hx, h⟩ := bind_ok h
    have hval : Settled [t] x.2 → Apt x.2 → Sets (opt (.assign t x.2)) := by
      intro hsi hni
      have hi := ih.expr hf.2 _ [t] x (tsOk_one _ (.inl hf.1)) (fun _ h => h) hx hsi hni
      intro c hc a b hm
      simp only [opt, gen] at hc
      obtain ⟨c1, hc1, hc⟩ := bind_ok hc
      injection hc with hc
      subst hc
      exact sets_app _ _ (by simp) _ hi hc1 a b hm
    split at h
    · injection h with h
      subst h
      exact hval hs.2 hn
    · refine sets_conv ts _ _ r h (.inl hf.1) hts rfl (hval ?_ (apt_conv ts _ (.assign t x.2) r h hn))
      rcases conv_cases ts t _ r h with ⟨hm, rfl⟩ | ⟨u, hu, rfl⟩
      · exact hs.2
      · exact hs.2
  | rel o a b iha ihb =>
    refine ⟨fun h => by simp [Fine] at h, ?_, fun h => by simp [Fine] at h⟩
    intro hf ts r hts h hs hn
    obtain ⟨fa, fb, na, nb⟩ := hf
    simp only [check] at h
    obtain ⟨ta, hta, h⟩ := bind_ok h
    obtain ⟨tb, htb, h⟩ := bind_ok h
    split at h
    · simp at h
    · rename_i t ht
      obtain ⟨ra, hra, h⟩ := bind_ok h
      obtain ⟨rb, hrb, h⟩ := bind_ok h
      have hfl : findCast .float ts = .float := by
        rcases hts with rfl | rfl <;> rfl
      rw [hfl] at h
      simp only [reduceCtorEq, if_false, if_true, Res.ok.injEq] at h
      subst h
      obtain ⟨s1, s2⟩ := hs
      have hok := tsOk_one t (common_all ta tb t (fine_resType a ta fa hta) (fine_resType b tb fb htb) ht)
      have h1 := iha.expr fa _ [] ra hok (fun _ h => by simp at h) hra s1 hn.1
      have h2 := ihb.expr fb _ [] rb hok (fun _ h => by simp at h) hrb s2 hn.2
      intro c hc a b hm
      simp only [opt, gen] at hc
      obtain ⟨_, _, hc⟩ := bind_ok hc
      obtain ⟨_, _, hc⟩ := bind_ok hc
      obtain ⟨ca, hca, hc⟩ := bind_ok hc
      obtain ⟨cb, hcb, hc⟩ := bind_ok hc
      injection hc with hc
      subst hc
      rw [List.mem_append] at hm
      rcases hm with hm | hm
      · exact h1 _ hca _ _ hm
      · exact sets_app _ _ (by simp) _ h2 hcb a b hm
  | logic o a b iha ihb =>
    refine ⟨fun h => by simp [Fine] at h, ?_, fun h => by simp [Fine] at h⟩
    intro hf ts r hts h hs hn
    obtain ⟨fa, fb⟩ := hf
    simp only [check] at h
    obtain ⟨ta, hta, h⟩ := bind_ok h
    obtain ⟨tb, htb, h⟩ := bind_ok h
    rw [rel_resType a fa] at hta
    rw [rel_resType b fb] at htb
    injection hta with hta
    injection htb with htb
    subst hta
    subst htb
    have hfl : common .float .float ts = some .float := by
      rcases hts with rfl | rfl <;> rfl
    rw [hfl] at h
    simp only at h
    obtain ⟨ra, hra, h⟩ := bind_ok h
    obtain ⟨rb, hrb, h⟩ := bind_ok h
    injection h with h
    subst h
    obtain ⟨s1, s2⟩ := hs
    have h1 := iha.rel fa _ ra (.inr rfl) hra s1 hn.1
    have h2 := ihb.rel fb _ rb (.inr rfl) hrb s2 hn.2
    intro c hc a b hm
    simp only [opt, gen] at hc
    obtain ⟨_, _, hc⟩ := bind_ok hc
    obtain ⟨_, _, hc⟩ := bind_ok hc
    obtain ⟨ca, hca, hc⟩ := bind_ok hc
    obtain ⟨cb, hcb, hc⟩ := bind_ok hc
    injection hc with hc
    subst hc
    rw [List.mem_append] at hm
    rcases hm with hm | hm
    · exact h1 _ hca _ _ hm
    · exact sets_app _ _ (by cases o <;> simp) _ h2 hcb a b hm
  | not e ih =>
    refine ⟨fun h => by simp [Fine] at h, ?_, fun h => by simp [Fine] at h⟩
    intro hf ts r hts h hs hn
    simp only [check] at h
    obtain ⟨x, hx, h⟩ := bind_ok h
    injection h with h
    subst h
    have h1 := ih.rel hf ts x hts hx hs hn
    intro c hc a b hm
    simp only [opt, gen] at hc
    obtain ⟨_, _, hc⟩ := bind_ok hc
    obtain ⟨c1, hc1, hc⟩ := bind_ok hc
    injection hc with hc
    subst hc
    exact sets_app _ _ (by simp) _ h1 hc1 a b hm
  | cond c a b ihc iha ihb =>
    refine ⟨?_, fun h => by simp [Fine] at h, fun h => by simp [Fine] at h⟩
    intro hf ts us r hts hus h hs hn
    obtain ⟨fc, fa, fb, na⟩ := hf
    simp only [check] at h
    obtain ⟨rc, hrc, h⟩ := bind_ok h
    obtain ⟨ta, hta, h⟩ := bind_ok h
    obtain ⟨tb, htb, h⟩ := bind_ok h
    split at h
    · simp at h
    · rename_i t ht
      obtain ⟨ra, hra, h⟩ := bind_ok h
      obtain ⟨rb, hrb, h⟩ := bind_ok h
      injection h with h
      subst h
      obtain ⟨s0, s1, s2⟩ := hs
      obtain ⟨n0, n1, n2⟩ := hn
      have hok : TsOk [t] := by
        rcases hts with rfl | hts
        · exact tsOk_one t (common_all ta tb t (fine_resType a ta fa hta) (fine_resType b tb fb htb) ht)
        · exact tsOk_one t (hts t (common_mem _ _ _ _ ht))
      have h0 := ihc.rel fc _ rc (.inl rfl) hrc s0 n0
      have h1 := iha.expr fa _ [] ra hok (fun _ h => by simp at h) hra s1 n1
      have h2 := ihb.expr fb _ [] rb hok (fun _ h => by simp at h) hrb s2 n2
      intro x hx a b hm
      simp only [opt, gen] at hx
      obtain ⟨cc, hcc, hx⟩ := bind_ok hx
      obtain ⟨ca, hca, hx⟩ := bind_ok hx
      obtain ⟨cb, hcb, hx⟩ := bind_ok hx
      obtain ⟨u, hu, hx⟩ := bind_ok hx
      injection hx with hx
      subst hx
      simp only [List.mem_append, List.mem_cons, reduceCtorEq, List.not_mem_nil, or_false,
        false_or] at hm
      rcases hm with hm | hm | hm
      · exact h0 _ hcc _ _ hm
      · exact h1 _ hca _ _ hm
      · exact h2 _ hcb _ _ hm
  | cast t e ih =>
    refine ⟨?_, fun h => by simp [Fine] at h, fun h => by simp [Fine] at h⟩
    intro hf ts us r hts hus h hs hn
    simp only [check] at h
    obtain ⟨x, hx, h⟩ := bind_ok h
    have hsi : Settled [t] x.2 := settled_conv ts us us t (.cast t x.2) r h hs (fun _ h => h)
    have hi := ih.expr hf.2.1 _ [t] x (tsOk_one _ (.inl hf.1)) (fun _ h => h) hx hsi
      (apt_conv ts _ (.cast t x.2) r h hn)
    obtain ⟨u, hu, _, hse⟩ := (main_sound e).expr hf.2.1 _ [t] x (fun _ h => h) hx hsi
      (apt_conv ts _ (.cast t x.2) r h hn)
    simp only [List.mem_singleton] at hu
    subst hu
    have hse := hse hf.2.2
    refine sets_conv ts _ _ r h (.inl hf.1) hts (sound_cast _ _ _ hse).1 ?_
    exact sets_cast _ _ _ hse.1 hi (.inl rfl)
  | triple a b c iha ihb ihc =>
    refine ⟨?_, fun h => by simp [Fine] at h, fun h => by simp [Fine] at h⟩
    intro hf ts us r hts hus h hs hn
    obtain ⟨fa, fb, fc⟩ := hf
    simp only [check] at h
    obtain ⟨ra, hra, h⟩ := bind_ok h
    obtain ⟨rb, hrb, h⟩ := bind_ok h
    obtain ⟨rc, hrc, h⟩ := bind_ok h
    have hsi : Settled us (.triple ra.2 rb.2 rc.2) := settled_conv ts us us _ _ r h hs (fun _ h => h)
    obtain ⟨sa, sb, sc⟩ := hsi
    obtain ⟨n0, n1, n2⟩ := apt_conv ts _ _ r h hn
    have hok : TsOk [.float] := tsOk_one _ (.inl (by simp [Plain]))
    have h0 := iha.expr fa _ _ ra hok (fun _ h => h) hra sa n0
    have h1 := ihb.expr fb _ _ rb hok (fun _ h => h) hrb sb n1
    have h2 := ihc.expr fc _ _ rc hok (fun _ h => h) hrc sc n2
    refine sets_conv ts _ _ r h (.inr (.inr rfl)) hts rfl ?_
    intro x hx a b hm
    simp only [opt, gen] at hx
    obtain ⟨cc, hcc, hx⟩ := bind_ok hx
    obtain ⟨cb, hcb, hx⟩ := bind_ok hx
    obtain ⟨ca, hca, hx⟩ := bind_ok hx
    injection hx with hx
    subst hx
    simp only [List.mem_append] at hm
    rcases hm with hm | hm | hm
    · exact h2 _ hcc _ _ hm
    · exact h1 _ hcb _ _ hm
    · exact h0 _ hca _ _ hm
  | hex args ih =>
    refine ⟨?_, fun h => by simp [Fine] at h, fun h => by simp [Fine] at h⟩
    intro hf ts us r hts hus h hs hn
    obtain ⟨fl, hlen⟩ := hf
    simp only [check] at h
    obtain ⟨x, hx, h⟩ := bind_ok h
    have hval : Settled (List.replicate 16 .float) x.2 → Apt x.2 → Sets (opt (.hex x.2)) := by
      intro hsi hni
      exact ih.list fl (List.replicate 16 .float) x none
        (by intro t ht; rw [List.mem_replicate] at ht; rw [ht.2]; simp [Plain]) hx hsi
        (by rw [List.length_replicate, hlen]; omega)
        (simpleAfter_len _ _ _ (by rw [List.length_replicate, check_len _ _ _ fl hx, hlen]; omega)) hni
    split at h
    · injection h with h
      subst h
      exact hval hs hn
    · rename_i hm
      split at h
      · simp at h
      · rename_i hne
        injection h with h
        subst h
        refine sets_cast .hextuple _ _ rfl (hval hs hn) ?_
        have : findCast .matrix ts = .matrix := by
          rcases findCast_pri _ _ hne with ⟨_, h⟩ | h
          · exact h
          · revert h
            cases findCast .matrix ts <;> simp [pri]
        rw [this]
        right; right
        simp [Known]
  | call fs args ih =>
    refine ⟨?_, fun h => by simp [Fine] at h, fun h => by simp [Fine] at h⟩
    intro hf ts us r hts hus h hs hno
    obtain ⟨fl, hfs⟩ := hf
    obtain ⟨g, l, ra, hg, hn, hle, hd, hra, rfl⟩ := check_call _ _ _ _ h
    have hs2 : Settled g.params ra.2 := hs
    obtain ⟨n0, n1, n3, n2⟩ : g.ret ≠ .hpoint ∧ Ty.hpoint ∉ g.params ∧
        (g.dots = true → SimpleAfter g.more g.params.length ra.2) ∧ Apt ra.2 := hno
    have hafter : SimpleAfter g.more g.params.length ra.2 := by
      cases hdt : g.dots with
      | false => exact simpleAfter_len _ _ _ (by rw [hd hdt, check_len _ _ _ fl hra]; omega)
      | true => exact n3 hdt
    have hpl : ∀ t ∈ g.params, Plain t := by
      intro t ht
      rcases (hfs g hg).2 t ht with h | h
      · exact h
      · subst h; exact absurd ht n1
    have h1 := ih.list fl g.params ra g.more hpl hra hs2 hle hafter n2
    refine sets_cast g.ret _ _ rfl ?_ ?_
    · intro c hc a b hm
      simp only [opt, gen] at hc
      obtain ⟨c1, hc1, hc⟩ := bind_ok hc
      injection hc with hc
      subst hc
      refine sets_app _ _ ?_ _ h1 hc1 a b hm
      intro a b
      cases g.dots <;> simp
    · refine castOk_find _ _ ?_ hts hn
      rcases (hfs g hg).1 with h | h | h
      · exact .inl h
      · exact .inr (.inl h)
      · exact absurd h n0
  | nil =>
    refine ⟨fun h => by simp [Fine] at h, fun h => by simp [Fine] at h, ?_⟩
    intro _ ps r k _ h _ hle _ _
    simp only [check, Res.ok.injEq] at h
    subst h
    intro c hc a b hm
    simp only [opt, gen, Res.ok.injEq] at hc
    subst hc
    simp at hm
  | cons e r ihe ihr =>
    refine ⟨fun h => by simp [Fine] at h, fun h => by simp [Fine] at h, ?_⟩
    intro hf ps x k hps h hs hle ha hno
    cases ps with
    | nil =>
      simp only [check, Res.ok.injEq] at h
      subst h
      exact rest_sets k _ hf (simpleAfter_prune k _ hf ha)
    | cons p ps =>
      simp only [check] at h
      obtain ⟨re, hre, h⟩ := bind_ok h
      obtain ⟨rr, hrr, h⟩ := bind_ok h
      injection h with h
      subst h
      obtain ⟨s1, s2⟩ := hs
      exact sets_cons _ _
        (ihe.expr hf.1 _ [p] re (tsOk_one _ (.inl (hps p (by simp)))) (fun _ h => h) hre s1 hno.1)
        (ihr.list hf.2 ps rr k (fun t ht => hps t (by simp [ht])) hrr s2
          (by simp only [List.length_cons, Expr.len] at hle; omega) ha hno.2)

end Verif.Shader.Types
