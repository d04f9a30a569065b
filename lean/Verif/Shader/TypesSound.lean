import Verif.Shader.TypesLemmas

/-
The main induction for property C78.
-/
set_option linter.unusedSectionVars false
set_option linter.unusedSimpArgs false

namespace Verif.Shader.Types

/-- The code of an expression leaves a value of a type. -/
def Leaves (e : Expr) (t : Ty) : Prop :=
  ∀ c, gen e = .ok c → (∀ i ∈ c, Known i) → ∀ st, run c st = .ok (slots t ++ st)

/-- The code of a list of arguments leaves the values of the parameters, and more which can be
taken as the arguments after them. -/
def LeavesList (e : Expr) (ps : List Ty) (k : Option Ty) (n : Nat) : Prop :=
  e.len = n ∧ ∀ c, gen e = .ok c → (∀ i ∈ c, Known i) → ∃ more : List Kind,
    (∀ st, takeMore k (n - ps.length) (more ++ st) = some st) ∧
    ∀ st, run c st = .ok (ps.flatMap slots ++ (more ++ st))

theorem simple_leaves (k : Option Ty) (e : Expr) (h : Simple k e) :
    opt (prune e) = e ∧ ∃ x, Leaves e x ∧ ∃ y, slots x = [y] ∧
      (k = none ∨ ∃ u, k = some u ∧ slots u = [y]) := by
  cases e with
  | num =>
    refine ⟨rfl, .float, ?_, .f, rfl, ?_⟩
    · intro c hc hk st
      simp only [gen, Res.ok.injEq] at hc
      subst hc
      exact run_one _ _ _ (hk _ (by simp)) rfl
    · rcases h with h | h
      · exact .inl h
      · exact .inr ⟨_, h, rfl⟩
  | str =>
    refine ⟨rfl, .string, ?_, .s, rfl, ?_⟩
    · intro c hc hk st
      simp only [gen, Res.ok.injEq] at hc
      subst hc
      exact run_one _ _ _ (hk _ (by simp)) rfl
    · rcases h with h | h
      · exact .inl h
      · exact .inr ⟨_, h, rfl⟩
  | var t =>
    obtain ⟨hp, h⟩ := h
    have : ∃ y, slots t = [y] := by
      rcases hp with h | h | h | h | h | h | h <;> subst h <;> exact ⟨_, rfl⟩
    obtain ⟨y, hy⟩ := this
    refine ⟨rfl, t, ?_, y, hy, ?_⟩
    · intro c hc hk st
      simp only [gen, Res.ok.injEq] at hc
      subst hc
      exact run_one _ _ _ (hk _ (by simp)) rfl
    · rcases h with h | ⟨u, h, hu⟩
      · exact .inl h
      · exact .inr ⟨u, h, by rw [hu, hy]⟩
  | _ => exact absurd h (by simp [Simple])

theorem takeMore_app (k : Option Ty) (n : Nat) (x st : List Kind) (y : Kind)
    (hx : ∀ st, takeMore k n (x ++ st) = some st)
    (hk : k = none ∨ ∃ u, k = some u ∧ slots u = [y]) :
    takeMore k (n + 1) ([y] ++ x ++ st) = some st := by
  rcases hk with rfl | ⟨u, rfl, hu⟩
  · exact hx st
  · show (if slots u = [y] then takeMore (some u) n (x ++ st) else none) = _
    rw [if_pos hu]
    exact hx st

theorem rest_leaves (k : Option Ty) (e : Expr) (hf : Fine .list e) (h : SimpleAfter k 0 e) :
    LeavesList (opt (prune e)) [] k e.len := by
  induction e with
  | nil =>
    refine ⟨rfl, ?_⟩
    intro c hc _
    simp only [prune, opt, gen, Res.ok.injEq] at hc
    subst hc
    exact ⟨[], fun st => rfl, fun st => rfl⟩
  | cons e r _ ih =>
    obtain ⟨hs, hr⟩ := h
    obtain ⟨h1, x, h2, y, h3, h4⟩ := simple_leaves k e hs
    obtain ⟨hl, ih⟩ := ih hf.2 hr
    have ho : opt (prune (.cons e r)) = .cons e (opt (prune r)) := by
      show Expr.cons (opt (prune e)) (opt (prune r)) = _
      rw [h1]
    rw [ho]
    refine ⟨by simp [Expr.len, hl], ?_⟩
    intro c hc hk
    simp only [gen] at hc
    obtain ⟨cr, hcr, hc⟩ := bind_ok hc
    obtain ⟨ce, hce, hc⟩ := bind_ok hc
    injection hc with hc
    subst hc
    obtain ⟨m, hm1, hm2⟩ := ih cr hcr (fun i hi => hk i (by simp [hi]))
    refine ⟨[y] ++ m, ?_, ?_⟩
    · intro st
      exact takeMore_app k _ m st y hm1 h4
    · intro st
      rw [run_app _ _ _ _ (hm2 st), h2 ce hce (fun i hi => hk i (by simp [hi])), h3]
      simp
  | _ => simp [Fine] at hf

theorem sound_of_leaves (e : Expr) (t : Ty) : Sound e t ↔ resType e = .ok t ∧ Leaves e t := Iff.rfl

theorem rel_resType (e : Expr) (h : Fine .rel e) : resType e = .ok .float := by
  induction e with
  | rel o a b _ _ => rfl
  | logic o a b _ _ => rfl
  | not e ih => exact ih h
  | _ => simp [Fine] at h

theorem leaves_rel (o : Rel) (a b : Expr) (t : Ty) (ha : Sound (opt a) t) (hb : Sound (opt b) t) :
    Sound (opt (.rel o a b)) .float := by
  refine ⟨rfl, ?_⟩
  intro c hc hk st
  simp only [opt, gen] at hc
  obtain ⟨ta, hta, hc⟩ := bind_ok hc
  obtain ⟨tb, htb, hc⟩ := bind_ok hc
  rw [ha.1] at hta
  rw [hb.1] at htb
  injection hta with hta
  injection htb with htb
  subst hta
  subst htb
  obtain ⟨ca, hca, hc⟩ := bind_ok hc
  obtain ⟨cb, hcb, hc⟩ := bind_ok hc
  injection hc with hc
  subst hc
  rw [run_app _ _ _ _ (ha.2 ca hca (fun i hi => hk i (by simp [hi])) st),
    run_app _ _ _ _ (hb.2 cb hcb (fun i hi => hk i (by simp [hi])) _)]
  refine run_one _ _ _ (hk _ (by simp)) ?_
  simp only [effect]
  rw [← List.append_assoc, take_app]
  rfl

theorem leaves_logic (o : Bool) (a b : Expr) (ha : Sound (opt a) .float)
    (hb : Sound (opt b) .float) : Sound (opt (.logic o a b)) .float := by
  refine ⟨rfl, ?_⟩
  intro c hc hk st
  simp only [opt, gen] at hc
  obtain ⟨_, _, hc⟩ := bind_ok hc
  obtain ⟨_, _, hc⟩ := bind_ok hc
  obtain ⟨ca, hca, hc⟩ := bind_ok hc
  obtain ⟨cb, hcb, hc⟩ := bind_ok hc
  injection hc with hc
  subst hc
  rw [run_app _ _ _ _ (ha.2 ca hca (fun i hi => hk i (by simp [hi])) st),
    run_app _ _ _ _ (hb.2 cb hcb (fun i hi => hk i (by simp [hi])) _)]
  refine run_one _ _ _ (hk _ (by simp)) ?_
  cases o <;> rfl

theorem leaves_not (e : Expr) (t : Ty) (he : resType (opt e) = .ok t) :
    Sound (opt (.not e)) t := by
  refine ⟨he, ?_⟩
  intro c hc hk st
  simp only [opt, gen] at hc
  obtain ⟨u, _, hc⟩ := bind_ok hc
  obtain ⟨c1, _, hc⟩ := bind_ok hc
  injection hc with hc
  subst hc
  exact absurd (hk (.not u) (by simp)) (by simp [Known])

theorem leaves_cond (c a b : Expr) (t : Ty) (hc : Sound (opt c) .float) (ha : Sound (opt a) t)
    (hb : Leaves (opt b) t) : Leaves (opt (.cond c a b)) t := by
  intro x hx hk st
  simp only [opt, gen] at hx
  obtain ⟨cc, hcc, hx⟩ := bind_ok hx
  obtain ⟨ca, hca, hx⟩ := bind_ok hx
  obtain ⟨cb, hcb, hx⟩ := bind_ok hx
  obtain ⟨u, hu, hx⟩ := bind_ok hx
  rw [ha.1] at hu
  injection hu with hu
  subst hu
  injection hx with hx
  subst hx
  rw [run_app _ _ _ _ (hc.2 cc hcc (fun i hi => hk i (by simp [hi])) st)]
  have hd : run [.dup, .test] (slots .float ++ st) = .ok (slots .float ++ st) := by
    simp [run, Known, effect, slots, take]
  rw [run_app _ _ _ _ hd,
    run_app _ _ _ _ (ha.2 ca hca (fun i hi => hk i (by simp [hi])) _),
    run_app _ _ _ _ (hb cb hcb (fun i hi => hk i (by simp [hi])) _)]
  refine run_one _ _ _ (hk _ (by simp)) ?_
  have := take_app (slots t ++ slots t ++ [.f]) st
  simp only [effect]
  have h2 : slots t ++ (slots t ++ (slots .float ++ st)) = (slots t ++ slots t ++ [.f]) ++ st := by
    simp [slots]
  rw [h2, this]
  rfl

/-- What the induction proves. -/
structure Main (e : Expr) : Prop where
  expr : Fine .expr e → ∀ ts us r, (∀ t ∈ us, t ∈ ts) → check ts e = .ok r → Settled us r.2 →
    Apt r.2 → ∃ t ∈ ts, Leaves (opt r.2) t ∧ (¬ IsCond e → Sound (opt r.2) t)
  rel : Fine .rel e → ∀ ts r, (ts = all ∨ ts = [.float]) → check ts e = .ok r → Settled [] r.2 →
    Apt r.2 → Sound (opt r.2) .float
  list : Fine .list e → ∀ ps r k, check ps e = .ok r → Settled ps r.2 → ps.length ≤ e.len →
    SimpleAfter k ps.length r.2 → Apt r.2 → LeavesList (opt r.2) ps k e.len

theorem main_conv (ts : List Ty) (t : Ty) (e x : Expr) (r : Ty × Expr) (h : conv ts t e = .ok r)
    (hs : Sound (opt e) t) :
    ∃ u ∈ ts, Leaves (opt r.2) u ∧ (¬ IsCond x → Sound (opt r.2) u) := by
  obtain ⟨u, hu, h1⟩ := sound_conv ts t e r h hs
  exact ⟨u, hu, h1.2, fun _ => h1⟩

theorem apt_conv (ts : List Ty) (t : Ty) (e : Expr) (r : Ty × Expr) (h : conv ts t e = .ok r)
    (hn : Apt r.2) : Apt e := by
  rcases conv_cases ts t e r h with ⟨hm, rfl⟩ | ⟨u, hu, rfl⟩
  · exact hn
  · exact hn

theorem main_sound (e : Expr) : Main e := by
  induction e with
  | num =>
    refine ⟨?_, fun h => by simp [Fine] at h, fun h => by simp [Fine] at h⟩
    intro _ ts us r _ h _ _
    refine main_conv ts _ _ _ r h ⟨rfl, ?_⟩
    intro c hc hk st
    simp only [opt, gen, Res.ok.injEq] at hc
    subst hc
    exact run_one _ _ _ (hk _ (by simp)) rfl
  | str =>
    refine ⟨?_, fun h => by simp [Fine] at h, fun h => by simp [Fine] at h⟩
    intro _ ts us r _ h _ _
    refine main_conv ts _ _ _ r h ⟨rfl, ?_⟩
    intro c hc hk st
    simp only [opt, gen, Res.ok.injEq] at hc
    subst hc
    exact run_one _ _ _ (hk _ (by simp)) rfl
  | var t =>
    refine ⟨?_, fun h => by simp [Fine] at h, fun h => by simp [Fine] at h⟩
    intro _ ts us r _ h _ _
    refine main_conv ts _ _ _ r h ⟨rfl, ?_⟩
    intro c hc hk st
    simp only [opt, gen, Res.ok.injEq] at hc
    subst hc
    exact run_one _ _ _ (hk _ (by simp)) rfl
  | elem t i ih =>
    refine ⟨?_, fun h => by simp [Fine] at h, fun h => by simp [Fine] at h⟩
    intro hf ts us r _ h hs hn
    simp only [check] at h
    obtain ⟨x, hx, h⟩ := bind_ok h
    split at h
    · simp at h
    · have hsi : Settled [.float] x.2 := settled_conv ts us us t (.elem t x.2) r h hs (fun _ h => h)
      obtain ⟨u, hu, hl, _⟩ := ih.expr hf.2 _ [.float] x (fun _ h => h) hx hsi
        (apt_conv ts _ (.elem t x.2) r h hn)
      simp only [List.mem_singleton] at hu
      subst hu
      refine main_conv ts _ _ _ r h ⟨rfl, ?_⟩
      intro c hc hk st
      simp only [opt, gen] at hc
      obtain ⟨c1, hc1, hc⟩ := bind_ok hc
      injection hc with hc
      subst hc
      rw [run_app _ _ _ _ (hl c1 hc1 (fun i hi => hk i (by simp [hi])) st)]
      refine run_one _ _ _ (hk _ (by simp)) ?_
      simp [effect, slots, take]
  | assign t e ih =>
    refine ⟨?_, fun h => by simp [Fine] at h, fun h => by simp [Fine] at h⟩
    intro hf ts us r hus h hs hn
    simp only [check] at h
    obtain ⟨x, hx, h⟩ := bind_ok h
    have hval : Settled [t] x.2 → Apt x.2 → Sound (opt (.assign t x.2)) t := by
      intro hsi hni
      obtain ⟨u, hu, hl, _⟩ := ih.expr hf.2 _ [t] x (fun _ h => h) hx hsi hni
      simp only [List.mem_singleton] at hu
      subst hu
      refine ⟨rfl, ?_⟩
      intro c hc hk st
      simp only [opt, gen] at hc
      obtain ⟨c1, hc1, hc⟩ := bind_ok hc
      injection hc with hc
      subst hc
      rw [run_app _ _ _ _ (hl c1 hc1 (fun i hi => hk i (by simp [hi])) st)]
      obtain ⟨hp, _⟩ := hf
      rcases hp with h | h | h | h | h | h | h <;> subst h <;>
        simp [run, Known, effect, slots, take]
    split at h
    · rename_i hne
      injection h with h
      subst h
      obtain ⟨h1, h2⟩ := hs
      rcases h1 with h1 | h1
      · exact ⟨t, hus t h1, (hval h2 hn).2, fun _ => hval h2 hn⟩
      · exact absurd (gives_fst e t x hf.2 hx h1) hne
    · refine main_conv ts _ _ _ r h (hval ?_ (apt_conv ts _ (.assign t x.2) r h hn))
      rcases conv_cases ts t _ r h with ⟨hm, rfl⟩ | ⟨u, hu, rfl⟩
      · exact hs.2
      · exact hs.2
  | rel o a b iha ihb =>
    refine ⟨fun h => by simp [Fine] at h, ?_, fun h => by simp [Fine] at h⟩
    intro hf ts r hts h hs hn
    obtain ⟨fa, fb, na, nb⟩ := hf
    simp only [check] at h
    obtain ⟨ta, _, h⟩ := bind_ok h
    obtain ⟨tb, _, h⟩ := bind_ok h
    split at h
    · simp at h
    · rename_i t ht
      obtain ⟨ra, hra, h⟩ := bind_ok h
      obtain ⟨rb, hrb, h⟩ := bind_ok h
      have hfl : findCast .float ts = .float := by
        rcases hts with rfl | rfl <;> rfl
      rw [hfl] at h
      simp only [reduceCtorEq, if_false, if_true, Res.ok.injEq] at h
      subst h
      obtain ⟨s1, s2⟩ := hs
      obtain ⟨u, hu, _, hsa⟩ := iha.expr fa _ [] ra (fun _ h => by simp at h) hra s1 hn.1
      obtain ⟨v, hv, _, hsb⟩ := ihb.expr fb _ [] rb (fun _ h => by simp at h) hrb s2 hn.2
      simp only [List.mem_singleton] at hu hv
      subst hu
      subst hv
      exact leaves_rel o ra.2 rb.2 _ (hsa na) (hsb nb)
  | logic o a b iha ihb =>
    refine ⟨fun h => by simp [Fine] at h, ?_, fun h => by simp [Fine] at h⟩
    intro hf ts r hts h hs hn
    obtain ⟨fa, fb⟩ := hf
    simp only [check] at h
    obtain ⟨ta, hta, h⟩ := bind_ok h
    obtain ⟨tb, htb, h⟩ := bind_ok h
    rw [rel_resType a fa] at hta
    rw [rel_resType b fb] at htb
    injection hta with hta
    injection htb with htb
    subst hta
    subst htb
    have hfl : common .float .float ts = some .float := by
      rcases hts with rfl | rfl <;> rfl
    rw [hfl] at h
    simp only at h
    obtain ⟨ra, hra, h⟩ := bind_ok h
    obtain ⟨rb, hrb, h⟩ := bind_ok h
    injection h with h
    subst h
    obtain ⟨s1, s2⟩ := hs
    exact leaves_logic o ra.2 rb.2 (iha.rel fa _ ra (.inr rfl) hra s1 hn.1)
      (ihb.rel fb _ rb (.inr rfl) hrb s2 hn.2)
  | not e ih =>
    refine ⟨fun h => by simp [Fine] at h, ?_, fun h => by simp [Fine] at h⟩
    intro hf ts r hts h hs hn
    simp only [check] at h
    obtain ⟨x, hx, h⟩ := bind_ok h
    injection h with h
    subst h
    exact leaves_not x.2 .float (ih.rel hf ts x hts hx hs hn).1
  | cond c a b ihc iha ihb =>
    refine ⟨?_, fun h => by simp [Fine] at h, fun h => by simp [Fine] at h⟩
    intro hf ts us r hus h hs hn
    obtain ⟨fc, fa, fb, na⟩ := hf
    simp only [check] at h
    obtain ⟨rc, hrc, h⟩ := bind_ok h
    obtain ⟨ta, _, h⟩ := bind_ok h
    obtain ⟨tb, _, h⟩ := bind_ok h
    split at h
    · simp at h
    · rename_i t ht
      obtain ⟨ra, hra, h⟩ := bind_ok h
      obtain ⟨rb, hrb, h⟩ := bind_ok h
      injection h with h
      subst h
      obtain ⟨s0, s1, s2⟩ := hs
      have hc := ihc.rel fc _ rc (.inl rfl) hrc s0 hn.1
      obtain ⟨u, hu, _, hsa⟩ := iha.expr fa _ [] ra (fun _ h => by simp at h) hra s1 hn.2.1
      obtain ⟨v, hv, hlb, _⟩ := ihb.expr fb _ [] rb (fun _ h => by simp at h) hrb s2 hn.2.2
      simp only [List.mem_singleton] at hu hv
      subst hu
      subst hv
      exact ⟨_, common_mem _ _ _ _ ht, leaves_cond rc.2 ra.2 rb.2 _ hc (hsa na) hlb,
        fun h => absurd trivial h⟩
  | cast t e ih =>
    refine ⟨?_, fun h => by simp [Fine] at h, fun h => by simp [Fine] at h⟩
    intro hf ts us r hus h hs hn
    simp only [check] at h
    obtain ⟨x, hx, h⟩ := bind_ok h
    have hsi : Settled [t] x.2 := settled_conv ts us us t (.cast t x.2) r h hs (fun _ h => h)
    obtain ⟨u, hu, _, hse⟩ := ih.expr hf.2.1 _ [t] x (fun _ h => h) hx hsi
      (apt_conv ts _ (.cast t x.2) r h hn)
    simp only [List.mem_singleton] at hu
    subst hu
    exact main_conv ts _ _ _ r h (sound_cast _ _ _ (hse hf.2.2))
  | triple a b c iha ihb ihc =>
    refine ⟨?_, fun h => by simp [Fine] at h, fun h => by simp [Fine] at h⟩
    intro hf ts us r hus h hs hn
    obtain ⟨fa, fb, fc⟩ := hf
    simp only [check] at h
    obtain ⟨ra, hra, h⟩ := bind_ok h
    obtain ⟨rb, hrb, h⟩ := bind_ok h
    obtain ⟨rc, hrc, h⟩ := bind_ok h
    have hsi : Settled us (.triple ra.2 rb.2 rc.2) := settled_conv ts us us _ _ r h hs (fun _ h => h)
    obtain ⟨sa, sb, sc⟩ := hsi
    obtain ⟨n0, n1, n2⟩ := apt_conv ts _ (.triple ra.2 rb.2 rc.2) r h hn
    obtain ⟨u, hu, hla, _⟩ := iha.expr fa _ _ ra (fun _ h => h) hra sa n0
    obtain ⟨v, hv, hlb, _⟩ := ihb.expr fb _ _ rb (fun _ h => h) hrb sb n1
    obtain ⟨w, hw, hlc, _⟩ := ihc.expr fc _ _ rc (fun _ h => h) hrc sc n2
    simp only [List.mem_singleton] at hu hv hw
    subst hu
    subst hv
    subst hw
    refine main_conv ts _ _ _ r h ⟨rfl, ?_⟩
    intro x hx hk st
    simp only [opt, gen] at hx
    obtain ⟨cc, hcc, hx⟩ := bind_ok hx
    obtain ⟨cb, hcb, hx⟩ := bind_ok hx
    obtain ⟨ca, hca, hx⟩ := bind_ok hx
    injection hx with hx
    subst hx
    rw [run_app _ _ _ _ (hlc cc hcc (fun i hi => hk i (by simp [hi])) st),
      run_app _ _ _ _ (hlb cb hcb (fun i hi => hk i (by simp [hi])) _),
      hla ca hca (fun i hi => hk i (by simp [hi])) _]
    rfl
  | hex args ih =>
    refine ⟨?_, fun h => by simp [Fine] at h, fun h => by simp [Fine] at h⟩
    intro hf ts us r hus h hs hn
    obtain ⟨fl, hlen⟩ := hf
    simp only [check] at h
    obtain ⟨x, hx, h⟩ := bind_ok h
    have hval : Settled (List.replicate 16 .float) x.2 → Apt x.2 →
        Sound (opt (.hex x.2)) .hextuple := by
      intro hsi hni
      obtain ⟨hl1, hl2⟩ := ih.list fl (List.replicate 16 .float) x none hx hsi
        (by rw [List.length_replicate, hlen]; omega)
        (simpleAfter_len _ _ _ (by rw [List.length_replicate, check_len _ _ _ fl hx, hlen]; omega)) hni
      refine ⟨rfl, ?_⟩
      intro c hc hk st
      simp only [opt, gen] at hc
      obtain ⟨m, hm1, hm2⟩ := hl2 c hc hk
      rw [hm2 st]
      have := hm1 st
      rw [hlen, List.length_replicate] at this
      simp only [Nat.sub_self, takeMore, Option.some.injEq] at this
      rw [this]
      rfl
    split at h
    · rename_i hm
      injection h with h
      subst h
      exact ⟨_, hm, (hval hs hn).2, fun _ => hval hs hn⟩
    · split at h
      · simp at h
      · rename_i hne
        injection h with h
        subst h
        have h1 := sound_cast (findCast .matrix ts) _ _ (hval hs hn)
        exact ⟨_, findCast_mem _ _ hne, h1.2, fun _ => h1⟩
  | call fs args ih =>
    refine ⟨?_, fun h => by simp [Fine] at h, fun h => by simp [Fine] at h⟩
    intro hf ts us r hus h hs hap
    obtain ⟨fl, hfs⟩ := hf
    obtain ⟨g, l, ra, hg, hn, hle, hd, hra, rfl⟩ := check_call _ _ _ _ h
    have hs2 : Settled g.params ra.2 := hs
    have hap : g.ret ≠ .hpoint ∧ Ty.hpoint ∉ g.params ∧
        (g.dots = true → SimpleAfter g.more g.params.length ra.2) ∧ Apt ra.2 := hap
    have hafter : SimpleAfter g.more g.params.length ra.2 := by
      cases hdt : g.dots with
      | false => exact simpleAfter_len _ _ _ (by rw [hd hdt, check_len _ _ _ fl hra]; omega)
      | true => exact hap.2.2.1 hdt
    obtain ⟨hl1, hl2⟩ := ih.list fl g.params ra g.more hra hs2 hle hafter hap.2.2.2
    have hval : Sound (opt (.call (g :: l) ra.2)) g.ret := by
      refine ⟨rfl, ?_⟩
      intro c hc hk st
      simp only [opt, gen] at hc
      obtain ⟨c1, hc1, hc⟩ := bind_ok hc
      injection hc with hc
      subst hc
      obtain ⟨m, hm1, hm2⟩ := hl2 c1 hc1 (fun i hi => hk i (by simp [hi]))
      rw [run_app _ _ _ _ (hm2 st), hl1]
      cases hdt : g.dots with
      | false =>
        simp only [Bool.false_eq_true, if_false, List.nil_append]
        refine run_one _ _ _ trivial ?_
        simp only [effect, hdt, Bool.false_eq_true, if_false, List.nil_append]
        rw [take_app]
        simp [hm1]
      | true =>
        simp only [if_true]
        rw [run_app [.push .float] _ _ _ (run_one _ _ _ trivial rfl)]
        refine run_one _ _ _ trivial ?_
        simp only [effect, hdt, if_true]
        have : slots .float ++ (g.params.flatMap slots ++ (m ++ st)) =
            ([.f] ++ g.params.flatMap slots) ++ (m ++ st) := by simp [slots]
        rw [this, take_app]
        simp [hm1]
    have h1 := sound_cast (findCast g.ret ts) _ _ hval
    exact ⟨_, findCast_mem _ _ hn, h1.2, fun _ => h1⟩
  | nil =>
    refine ⟨fun h => by simp [Fine] at h, fun h => by simp [Fine] at h, ?_⟩
    intro _ ps r k h _ hle _ _
    simp only [check, Res.ok.injEq] at h
    subst h
    have : ps = [] := by
      cases ps with
      | nil => rfl
      | cons _ _ => simp [Expr.len] at hle
    subst this
    refine ⟨rfl, ?_⟩
    intro c hc _
    simp only [opt, gen, Res.ok.injEq] at hc
    subst hc
    exact ⟨[], fun st => rfl, fun st => rfl⟩
  | cons e r ihe ihr =>
    refine ⟨fun h => by simp [Fine] at h, fun h => by simp [Fine] at h, ?_⟩
    intro hf ps x k h hs hle ha hap
    cases ps with
    | nil =>
      simp only [check, Res.ok.injEq] at h
      subst h
      exact rest_leaves k _ hf (simpleAfter_prune k _ hf ha)
    | cons p ps =>
      simp only [check] at h
      obtain ⟨re, hre, h⟩ := bind_ok h
      obtain ⟨rr, hrr, h⟩ := bind_ok h
      injection h with h
      subst h
      obtain ⟨s1, s2⟩ := hs
      obtain ⟨u, hu, hle1, _⟩ := ihe.expr hf.1 _ [p] re (fun _ h => h) hre s1 hap.1
      simp only [List.mem_singleton] at hu
      subst hu
      obtain ⟨hl1, hl2⟩ := ihr.list hf.2 ps rr k hrr s2
        (by simp only [List.length_cons, Expr.len] at hle; omega) ha hap.2
      refine ⟨by simp [opt, Expr.len, hl1], ?_⟩
      intro c hc hk
      simp only [opt, gen] at hc
      obtain ⟨cr, hcr, hc⟩ := bind_ok hc
      obtain ⟨ce, hce, hc⟩ := bind_ok hc
      injection hc with hc
      subst hc
      obtain ⟨m, hm1, hm2⟩ := hl2 cr hcr (fun i hi => hk i (by simp [hi]))
      refine ⟨m, ?_, ?_⟩
      · intro st
        have : (Expr.cons e r).len - (u :: ps).length = r.len - ps.length := by
          simp only [Expr.len, List.length_cons]; omega
        rw [this]
        exact hm1 st
      · intro st
        rw [run_app _ _ _ _ (hm2 st), hle1 ce hce (fun i hi => hk i (by simp [hi]))]
        simp

end Verif.Shader.Types
