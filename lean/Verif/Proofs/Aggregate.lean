import Verif.Proofs.Query

/-! Helper lemmas: the aggregate operator. -/

namespace EDB

variable {W A : Type}

/-- Every function of the list was fed the rows. -/
inductive Fed : List (Agg A) → List A → List (List Byte) → List A → Prop
  | nil {rs} : Fed [] [] rs []
  | cons {f fs a as rs v vs} : feed f a rs = .ok v → Fed fs as rs vs → Fed (f :: fs) (a :: as) rs (v :: vs)

theorem feed_cons {f : Agg A} {a : A} {r : List Byte} {rs : List (List Byte)} {v : A} (h : feed f a (r :: rs) = .ok v) :
    ∃ b, f.add a r = .ok b ∧ feed f b rs = .ok v := by
  unfold feed at h
  cases hb : f.add a r with
  | ok b => rw [hb] at h; exact ⟨b, rfl, h⟩
  | ub => rw [hb] at h; cases h
  | fuel => rw [hb] at h; cases h

theorem fed_cons {fs : List (Agg A)} {as : List A} {r : List Byte} {rs : List (List Byte)} {vs : List A}
    (h : Fed fs as (r :: rs) vs) : ∃ bs, addAll fs as r = .ok bs ∧ Fed fs bs rs vs := by
  generalize hq : r :: rs = q at h
  induction h with
  | nil => exact ⟨[], rfl, .nil⟩
  | cons h1 h2 ih =>
    subst hq
    obtain ⟨b, hb, hf⟩ := feed_cons h1
    obtain ⟨bs, hbs, hfs⟩ := ih rfl
    exact ⟨b :: bs, by unfold addAll; simp [hb, hbs], .cons hf hfs⟩

theorem fed_nil {fs : List (Agg A)} {as vs : List A} (h : Fed fs as [] vs) : vs = as := by
  generalize hq : ([] : List (List Byte)) = q at h
  induction h with
  | nil => rfl
  | cons h1 h2 ih => subst hq; unfold feed at h1; cases h1; rw [ih rfl]

/-- Last row of the group so far. -/
def lastOf (l : List Byte) (t : List (List Byte)) : List Byte := t.getLast?.getD l

theorem lastOf_cons (l r : List Byte) (t : List (List Byte)) : lastOf l (r :: t) = lastOf r t := by
  unfold lastOf
  cases t with
  | nil => rfl
  | cons x t => rw [List.getLast?_cons_cons]; cases h : (x :: t).getLast? with
    | none => simp at h
    | some y => rfl

/-- Consecutive rows are in the same group. -/
def Chained (grp : List Byte → List Byte → Bool) : List Byte → List (List Byte) → Prop
  | _, [] => True
  | l, r :: t => grp l r = true ∧ Chained grp r t

theorem aggLoop_spec {I : W → Prop} {inp : Oper W} {fs : List (Agg A)} {grp : List Byte → List Byte → Bool}
    (hw : Spec.width inp.schema < 2 ^ 16) (rest : List (List Byte)) :
    ∀ (t : List (List Byte)) (f : Nat) (s : AggSt inp.σ A) (vs : List A), t.length + rest.length < f → s.usable = true →
      (∀ r ∈ t, r.length = Spec.width inp.schema) → Chained grp s.last t →
      (∀ b, rest.head? = some b → grp (lastOf s.last t) b = false) → Fed fs s.fns t vs →
      YieldsForever I inp (t ++ rest) s.inp → ∀ w, I w →
      ∃ w' i', I w' ∧ aggLoop inp fs grp f w s true =
          .ok (w', { s with inp := i', fns := vs, last := lastOf s.last t }, true, !rest.isEmpty) ∧
        (rest = [] → EndsForever I inp i') ∧
        (∀ b rest', rest = b :: rest' → inp.buf i' = b ∧ YieldsForever I inp rest' i')
  | _, 0, s, vs, hf, _, _, _, _, _, _, w, hi => by omega
  | [], f + 1, s, vs, hf, hu, hl, hch, hbr, hfed, hy, w, hi => by
    have hvs := fed_nil hfed
    subst hvs
    cases hrest : rest with
    | nil =>
      subst hrest
      obtain ⟨P, p0, p1⟩ := hy
      obtain ⟨w', i', e1, e2, e3⟩ := p1 s.inp p0 w hi
      refine ⟨w', i', e2, ?_, fun _ => ⟨P, e3, p1⟩, by simp⟩
      unfold aggLoop
      simp [e1, lastOf]
    | cons b rest' =>
      subst hrest
      obtain ⟨w', i', e1, e2, e3, e4⟩ := hy w hi
      refine ⟨w', i', e2, ?_, by simp, ?_⟩
      · have hb := hbr b rfl
        simp only [lastOf, List.getLast?_nil, Option.getD_none] at hb
        unfold aggLoop
        simp [e1, lastOf, e3, hu, hb]
      · intro b' r' h
        cases h
        exact ⟨e3, e4⟩
  | r :: t, f + 1, s, vs, hf, hu, hl, hch, hbr, hfed, hy, w, hi => by
    obtain ⟨w1, i1, e1, e2, e3, e4⟩ := hy w hi
    obtain ⟨bs, hb1, hb2⟩ := fed_cons hfed
    have htake := take_of_width hw (hl r (by simp))
    obtain ⟨w', i', k1, k2, k3⟩ := aggLoop_spec hw rest t f
      { s with inp := i1, fns := bs, last := r, usable := true } vs (by simp at hf; omega) rfl
      (fun r h => hl r (by simp [h])) hch.2 (by
        intro b hb
        have := hbr b hb
        rwa [lastOf_cons] at this) hb2 e4 w1 e2
    refine ⟨w', i', k1, ?_, k3⟩
    conv => lhs; unfold aggLoop
    simp only [e1, Res.ok_bind, if_true, e3, hch.1, Bool.or_true, hb1, htake]
    rw [k2, lastOf_cons]
    simp [hu]

theorem take_putBytes {out bs : List Byte} {off : Nat} (h : off + bs.length ≤ out.length) :
    (putBytes out off bs).take (off + bs.length) = out.take off ++ bs := by
  unfold putBytes
  have : off + bs.length = (out.take off ++ bs).length := by
    rw [List.length_append, List.length_take]; omega
  rw [this, List.take_left']
  rfl

theorem width_append (s t : Schema) : Spec.width (s ++ t) = Spec.width s + Spec.width t := by
  simp [Spec.width]

theorem computeAll_spec {last : List Byte} :
    ∀ (fs : List (Agg A)) (vs : List A) (done : Schema) (out : List Byte),
      fs.length = vs.length →
      (∀ p ∈ fs.zip vs, (p.1.out p.2 last).length = p.1.colSize.natAbs) →
      Spec.width (done ++ fs.map Agg.colSize) < 2 ^ 16 →
      out.length = Spec.width (done ++ fs.map Agg.colSize) →
      computeAll (done ++ fs.map Agg.colSize) fs vs done.length last out =
        out.take (Spec.width done) ++ ((fs.zip vs).map fun p => p.1.out p.2 last).flatten
  | [], [], done, out, _, _, hw, hlen => by
    simp only [List.map_nil, List.append_nil] at hlen
    unfold computeAll
    simp only [List.zip_nil_right, List.map_nil, List.flatten_nil, List.append_nil]
    rw [List.take_of_length_le (by omega)]
  | [], _ :: _, _, _, h, _, _, _ => by simp at h
  | _ :: _, [], _, _, h, _, _, _ => by simp at h
  | f :: fs, v :: vs, done, out, hl, ho, hw, hlen => by
    have hfl : (f.out v last).length = f.colSize.natAbs := ho (f, v) (by simp)
    have hoff : colOffset (done ++ (f :: fs).map Agg.colSize) done.length = Spec.width done := by
      rw [colOffset_eq hw, List.take_left']; rfl
    have hsch : done ++ (f :: fs).map Agg.colSize = (done ++ [f.colSize]) ++ fs.map Agg.colSize := by simp
    have hbound : Spec.width done + (f.out v last).length ≤ out.length := by
      rw [hlen, hfl, hsch, width_append, width_append]
      simp [Spec.width]
    unfold computeAll
    rw [hoff]
    have ih := computeAll_spec fs vs (done ++ [f.colSize]) (putBytes out (Spec.width done) (f.out v last))
      (by simpa using hl) (fun p hp => ho p (by simp [hp])) (by rw [← hsch]; exact hw)
      (by rw [putBytes_length hbound, hlen, hsch])
    rw [← hsch] at ih
    have hlen1 : (done ++ [f.colSize]).length = done.length + 1 := by simp
    rw [hlen1] at ih
    rw [ih]
    have : Spec.width (done ++ [f.colSize]) = Spec.width done + (f.out v last).length := by
      rw [width_append, hfl]; simp [Spec.width]
    rw [this, take_putBytes hbound]
    simp

/-- Hypotheses under which every group's row is well defined. -/
def AggOk (a0 : A) (fs : List (Agg A)) (groups : List (List (List Byte))) : Prop :=
  (∀ f ∈ fs, ∀ a a', f.reset a = f.reset a') ∧
  ∀ g ∈ groups, ∀ f ∈ fs, ∃ v, feed f (f.reset a0) g = .ok v ∧
    (f.out v (g.getLast?.getD [])).length = f.colSize.natAbs

theorem fed_of_ok {a0 : A} {g : List (List Byte)} :
    ∀ (fs : List (Agg A)) (as : List A), fs.length = as.length → (∀ f ∈ fs, ∀ a a', f.reset a = f.reset a') →
      (∀ f ∈ fs, ∃ v, feed f (f.reset a0) g = .ok v ∧ (f.out v (g.getLast?.getD [])).length = f.colSize.natAbs) →
      ∃ vs, Fed fs (List.zipWith (fun (f : Agg A) a => f.reset a) fs as) g vs ∧ fs.length = vs.length ∧
        (∀ p ∈ fs.zip vs, (p.1.out p.2 (g.getLast?.getD [])).length = p.1.colSize.natAbs) ∧
        ((fs.zip vs).map fun p => p.1.out p.2 (g.getLast?.getD [])).flatten = aggRow a0 fs g
  | [], [], _, _, _ => ⟨[], .nil, rfl, by simp, by simp [aggRow]⟩
  | [], _ :: _, h, _, _ => by simp at h
  | _ :: _, [], h, _, _ => by simp at h
  | f :: fs, a :: as, hl, hr, hv => by
    obtain ⟨v, hv1, hv2⟩ := hv f (by simp)
    obtain ⟨vs, k1, k2, k3, k4⟩ := fed_of_ok fs as (by simpa using hl) (fun f hf => hr f (by simp [hf]))
      (fun f hf => hv f (by simp [hf]))
    refine ⟨v :: vs, ?_, by simp [k2], ?_, ?_⟩
    · rw [List.zipWith_cons_cons]
      exact .cons (by rw [hr f (by simp) a a0]; exact hv1) k1
    · intro p hp
      rw [List.zip_cons_cons, List.mem_cons] at hp
      rcases hp with rfl | hp
      · exact hv2
      · exact k3 p hp
    · rw [List.zip_cons_cons, List.map_cons, List.flatten_cons, k4]
      unfold aggRow
      rw [List.map_cons, List.flatten_cons]
      congr 1
      unfold aggOut
      rw [hv1]

theorem Fed.length_eq {fs : List (Agg A)} {as vs : List A} {rs : List (List Byte)} (h : Fed fs as rs vs) :
    fs.length = vs.length := by
  induction h with
  | nil => rfl
  | cons _ _ ih => simp [ih]

theorem chained_of {grp : List Byte → List Byte → Bool} : ∀ (l : List Byte) (t : List (List Byte)),
    (∀ p a b r, l :: t = p ++ a :: b :: r → grp a b = true) → Chained grp l t
  | _, [], _ => trivial
  | l, x :: t, h => ⟨h [] l x t rfl, chained_of x t fun p a b r e => h (l :: p) a b r (by rw [e]; rfl)⟩

theorem getLast?_cons_getD (l : List Byte) (t : List (List Byte)) : ((l :: t).getLast?.getD []) = lastOf l t := by
  unfold lastOf
  cases t with
  | nil => rfl
  | cons x t =>
    rw [List.getLast?_cons_cons]
    cases h : (x :: t).getLast? with
    | none => simp at h
    | some y => rfl

theorem getLast?_cons_some (l : List Byte) (t : List (List Byte)) : (l :: t).getLast? = some (lastOf l t) := by
  unfold lastOf
  cases t with
  | nil => rfl
  | cons x t =>
    rw [List.getLast?_cons_cons]
    cases h : (x :: t).getLast? with
    | none => simp at h
    | some y => rfl

section main

variable {I : W → Prop} {inp : Oper W} {fs : List (Agg A)} {grp : List Byte → List Byte → Bool} {F : Nat} {a0 : A}

/-- One call that produces a group: entered with the group's first row already read (`usable`). -/
theorem aggNext_usable (hw : Spec.width inp.schema < 2 ^ 16) (hwo : Spec.width (fs.map Agg.colSize) < 2 ^ 16)
    (l : List Byte) (t rest : List (List Byte)) (s : AggSt inp.σ A)
    (hu : s.usable = true) (hlast : s.last = l) (hfl : fs.length = s.fns.length)
    (hb : s.buf.length = Spec.width (fs.map Agg.colSize))
    (hF : t.length + rest.length < F)
    (hl : ∀ r ∈ t ++ rest, r.length = Spec.width inp.schema)
    (hch : Chained grp l t) (hbr : ∀ b, rest.head? = some b → grp (lastOf l t) b = false)
    (hres : ∀ f ∈ fs, ∀ a a', f.reset a = f.reset a')
    (hok : ∀ f ∈ fs, ∃ v, feed f (f.reset a0) (l :: t) = .ok v ∧
      (f.out v ((l :: t).getLast?.getD [])).length = f.colSize.natAbs)
    (hy : YieldsForever I inp (t ++ rest) s.inp) (w : W) (hi : I w) :
    ∃ w' s', aggNext F inp fs grp w s = .ok (w', s', true) ∧ I w' ∧ s'.buf = aggRow a0 fs (l :: t) ∧
      fs.length = s'.fns.length ∧
      (rest = [] → s'.usable = false ∧ EndsForever I inp s'.inp) ∧
      (∀ b rest', rest = b :: rest' → s'.usable = true ∧ s'.last = b ∧ YieldsForever I inp rest' s'.inp) := by
  obtain ⟨vs, k1, k2, k3, k4⟩ := fed_of_ok fs s.fns hfl hres hok
  obtain ⟨bs, b1, b2⟩ := fed_cons k1
  obtain ⟨w', i', e1, e2, e3, e4⟩ := aggLoop_spec hw rest t F
    { s with fns := bs } vs hF hu (fun r h => hl r (by simp [h])) (by rw [hlast]; exact hch) (by rw [hlast]; exact hbr) b2 hy w hi
  simp only [hlast, hu] at e2
  have hcomp := computeAll_spec (last := (l :: t).getLast?.getD []) fs vs [] s.buf k2 k3 hwo hb
  simp only [List.nil_append, List.length_nil, show Spec.width [] = 0 from rfl, List.take_zero] at hcomp
  rw [k4, getLast?_cons_getD] at hcomp
  cases hrest : rest with
  | nil =>
    rw [hrest] at e2
    refine ⟨w', ⟨i', vs, (inp.buf i').take (recordSize inp.schema), false, aggRow a0 fs (l :: t)⟩, ?_, e1, rfl, k2, fun _ => ⟨rfl, e3 hrest⟩, by simp⟩
    unfold aggNext
    simp only [hu, if_true, b1, hlast, Res.ok_bind, e2, List.isEmpty_nil, Bool.not_true, Bool.false_eq_true, if_false]
    rw [hcomp]
  | cons b rest' =>
    rw [hrest] at e2
    obtain ⟨f1, f2⟩ := e4 b rest' hrest
    refine ⟨w', ⟨i', vs, b, true, aggRow a0 fs (l :: t)⟩, ?_, e1, rfl, k2, by simp, ?_⟩
    · unfold aggNext
      simp only [hu, if_true, b1, hlast, Res.ok_bind, e2, List.isEmpty_cons, Bool.not_false]
      rw [hcomp, f1, take_of_width hw (hl b (by simp [hrest]))]
    · intro b' r' h
      cases h
      exact ⟨rfl, rfl, f2⟩

/-- One call that produces a group: entered with nothing read yet. -/
theorem aggNext_fresh (hw : Spec.width inp.schema < 2 ^ 16) (hwo : Spec.width (fs.map Agg.colSize) < 2 ^ 16)
    (l : List Byte) (t rest : List (List Byte)) (s : AggSt inp.σ A)
    (hu : s.usable = false) (hfl : fs.length = s.fns.length)
    (hb : s.buf.length = Spec.width (fs.map Agg.colSize))
    (hF : t.length + rest.length + 1 < F)
    (hl : ∀ r ∈ l :: t ++ rest, r.length = Spec.width inp.schema)
    (hch : Chained grp l t) (hbr : ∀ b, rest.head? = some b → grp (lastOf l t) b = false)
    (hres : ∀ f ∈ fs, ∀ a a', f.reset a = f.reset a')
    (hok : ∀ f ∈ fs, ∃ v, feed f (f.reset a0) (l :: t) = .ok v ∧
      (f.out v ((l :: t).getLast?.getD [])).length = f.colSize.natAbs)
    (hy : YieldsForever I inp (l :: t ++ rest) s.inp) (w : W) (hi : I w) :
    ∃ w' s', aggNext F inp fs grp w s = .ok (w', s', true) ∧ I w' ∧ s'.buf = aggRow a0 fs (l :: t) ∧
      fs.length = s'.fns.length ∧
      (rest = [] → s'.usable = false ∧ EndsForever I inp s'.inp) ∧
      (∀ b rest', rest = b :: rest' → s'.usable = true ∧ s'.last = b ∧ YieldsForever I inp rest' s'.inp) := by
  obtain ⟨vs, k1, k2, k3, k4⟩ := fed_of_ok fs s.fns hfl hres hok
  obtain ⟨bs, b1, b2⟩ := fed_cons k1
  obtain ⟨w1, i1, y1, y2, y3, y4⟩ := hy w hi
  obtain ⟨F', rfl⟩ : ∃ F', F = F' + 1 := ⟨F - 1, by omega⟩
  have htl := take_of_width hw (hl l (by simp))
  obtain ⟨w', i', e1, e2, e3, e4⟩ := aggLoop_spec hw rest t F'
    { s with inp := i1, fns := bs, last := l, usable := true } vs (by omega) rfl (fun r h => hl r (by simp [h]))
    hch hbr b2 y4 w1 y2
  have hloop : aggLoop inp fs grp (F' + 1) w { s with fns := List.zipWith (fun (f : Agg A) a => f.reset a) fs s.fns } s.usable
      = .ok (w', { s with inp := i', fns := vs, last := lastOf l t, usable := true }, true, !rest.isEmpty) := by
    unfold aggLoop
    simp only [y1, Res.ok_bind, if_true, hu, Bool.not_false, Bool.true_or, y3, b1, htl]
    rw [e2]
  have hcomp := computeAll_spec (last := (l :: t).getLast?.getD []) fs vs [] s.buf k2 k3 hwo hb
  simp only [List.nil_append, List.length_nil, show Spec.width [] = 0 from rfl, List.take_zero] at hcomp
  rw [k4, getLast?_cons_getD] at hcomp
  have hnext : aggNext (F' + 1) inp fs grp w s = (aggLoop inp fs grp (F' + 1) w { s with fns := List.zipWith (fun (f : Agg A) a => f.reset a) fs s.fns } s.usable >>= fun (w, s, any, exit) =>
      if any then
        let s := if exit then s else { s with usable := false }
        let s := { s with buf := computeAll (fs.map Agg.colSize) fs s.fns 0 s.last s.buf }
        .ok (w, { s with last := (inp.buf s.inp).take (recordSize inp.schema) }, true)
      else .ok (w, s, false)) := by
    unfold aggNext
    simp only [hu, Bool.false_eq_true, if_false, Res.ok_bind]
  rw [hnext, hloop]
  cases hrest : rest with
  | nil =>
    refine ⟨w', ⟨i', vs, (inp.buf i').take (recordSize inp.schema), false, aggRow a0 fs (l :: t)⟩, ?_, e1, rfl, k2, fun _ => ⟨rfl, e3 hrest⟩, by simp⟩
    simp only [Res.ok_bind, if_true, List.isEmpty_nil, Bool.not_true, Bool.false_eq_true, if_false]
    rw [hcomp]
  | cons b rest' =>
    obtain ⟨f1, f2⟩ := e4 b rest' hrest
    refine ⟨w', ⟨i', vs, b, true, aggRow a0 fs (l :: t)⟩, ?_, e1, rfl, k2, by simp, ?_⟩
    · simp only [Res.ok_bind, if_true, List.isEmpty_cons, Bool.not_false]
      rw [hcomp, f1, take_of_width hw (hl b (by simp [hrest]))]
    · intro b' r' h
      cases h
      exact ⟨rfl, rfl, f2⟩

/-- After the last group. -/
theorem agg_ends {as0 : List A} (hF : 0 < F) (s : AggSt inp.σ A) (hu : s.usable = false) (he : EndsForever I inp s.inp) :
    EndsClean I (aggregate F inp fs as0 grp) s := by
  obtain ⟨P, p0, p1⟩ := he
  refine ⟨fun s => s.usable = false ∧ P s.inp, ⟨hu, p0⟩, ?_⟩
  rintro s ⟨hu, hp⟩ w hi
  obtain ⟨w', i', e1, e2, e3⟩ := p1 s.inp hp w hi
  obtain ⟨F', rfl⟩ : ∃ F', F = F' + 1 := ⟨F - 1, by omega⟩
  refine ⟨w', { s with inp := i', fns := List.zipWith (fun (f : Agg A) a => f.reset a) fs s.fns }, ?_, e2, ⟨hu, e3⟩, rfl⟩
  show aggNext (F' + 1) inp fs grp w s = _
  unfold aggNext
  simp only [hu, Bool.false_eq_true, if_false, Res.ok_bind]
  unfold aggLoop
  simp [e1]
  rfl

end main

theorem isGrouping_tail {grp : List Byte → List Byte → Bool} {rows : List (List Byte)} {g : List (List Byte)}
    {gs : List (List (List Byte))} (h : Spec.IsGrouping grp rows (g :: gs)) : Spec.IsGrouping grp gs.flatten gs := by
  obtain ⟨-, h2, h3, h4⟩ := h
  exact ⟨rfl, fun x hx => h2 x (by simp [hx]), fun x hx => h3 x (by simp [hx]),
    fun l x y r e => h4 (g :: l) x y r (by rw [e]; rfl)⟩

theorem isGrouping_head {grp : List Byte → List Byte → Bool} {rows : List (List Byte)} {l : List Byte} {t : List (List Byte)}
    {gs : List (List (List Byte))} (h : Spec.IsGrouping grp rows ((l :: t) :: gs)) :
    Chained grp l t ∧ ∀ b, gs.flatten.head? = some b → grp (lastOf l t) b = false := by
  obtain ⟨-, h2, h3, h4⟩ := h
  refine ⟨chained_of l t fun p a b r e => h3 (l :: t) (by simp) p a b r e, fun b hb => ?_⟩
  cases gs with
  | nil => simp at hb
  | cons g gs =>
    have hg : g ≠ [] := h2 g (by simp)
    refine h4 [] (l :: t) g gs rfl _ b (getLast?_cons_some l t) ?_
    cases g with
    | nil => exact absurd rfl hg
    | cons x g => simpa using hb

/-- The whole operator. -/
theorem aggregate_clean {I : W → Prop} {inp : Oper W} {fs : List (Agg A)} {grp : List Byte → List Byte → Bool} {F : Nat}
    {a0 : A} {as0 : List A}
    (hw : Spec.width inp.schema < 2 ^ 16) (hwo : Spec.width (fs.map Agg.colSize) < 2 ^ 16) :
    ∀ (groups : List (List (List Byte))) (s : AggSt inp.σ A), fs.length = s.fns.length →
      s.buf.length = Spec.width (fs.map Agg.colSize) → groups.flatten.length + 1 < F →
      (∀ r ∈ groups.flatten, r.length = Spec.width inp.schema) →
      Spec.IsGrouping grp groups.flatten groups → AggOk a0 fs groups →
      ((s.usable = false ∧ YieldsForever I inp groups.flatten s.inp) ∨
        (∃ l t gs, groups = (l :: t) :: gs ∧ s.usable = true ∧ s.last = l ∧ YieldsForever I inp (t ++ gs.flatten) s.inp)) →
      YieldsClean I (aggregate F inp fs as0 grp) (groups.map (aggRow a0 fs)) s
  | [], s, _, _, hF, _, _, _, h => by
    rcases h with ⟨hu, hy⟩ | ⟨l, t, gs, h, -⟩
    · exact agg_ends (by omega) s hu hy
    · cases h
  | g :: gs, s, hfl, hb, hF, hl, hg, hok, h => by
    obtain ⟨l, t, rfl⟩ : ∃ l t, g = l :: t := by
      cases g with
      | nil => exact absurd rfl (hg.2.1 [] (by simp))
      | cons l t => exact ⟨l, t, rfl⟩
    obtain ⟨hch, hbr⟩ := isGrouping_head hg
    have hflat : ((l :: t) :: gs).flatten = l :: t ++ gs.flatten := by simp
    rw [hflat] at hl
    have hFl : t.length + gs.flatten.length + 2 < F := by
      rw [hflat] at hF; simp only [List.cons_append, List.length_cons, List.length_append] at hF; omega
    intro w hi
    have step : ∃ w' s', aggNext F inp fs grp w s = .ok (w', s', true) ∧ I w' ∧ s'.buf = aggRow a0 fs (l :: t) ∧
        fs.length = s'.fns.length ∧
        (gs.flatten = [] → s'.usable = false ∧ EndsForever I inp s'.inp) ∧
        (∀ b rest', gs.flatten = b :: rest' → s'.usable = true ∧ s'.last = b ∧ YieldsForever I inp rest' s'.inp) := by
      rcases h with ⟨hu, hy⟩ | ⟨l', t', gs', h, hu, hlast, hy⟩
      · rw [hflat] at hy
        exact aggNext_fresh hw hwo l t gs.flatten s hu hfl hb (by omega) hl hch hbr hok.1 (hok.2 _ (by simp)) hy w hi
      · cases h
        exact aggNext_usable hw hwo l t gs.flatten s hu hlast hfl hb (by omega) (fun r h => hl r (by simp at h ⊢; tauto)) hch hbr hok.1
          (hok.2 _ (by simp)) hy w hi
    obtain ⟨w', s', e1, e2, e3, e4, e5, e6⟩ := step
    refine ⟨w', s', e1, e2, e3, ?_⟩
    have hg' := isGrouping_tail hg
    have hrowlen : (aggRow a0 fs (l :: t)).length = Spec.width (fs.map Agg.colSize) := by
      unfold aggRow Spec.width
      rw [List.length_flatten, List.map_map, List.map_map]
      congr 1
      apply List.map_congr_left
      intro f hf
      obtain ⟨v, h1, h2⟩ := hok.2 (l :: t) (by simp) f hf
      simp only [Function.comp, aggOut, h1, h2]
    apply aggregate_clean hw hwo gs s' e4 (by rw [e3, hrowlen]) (by omega) (fun r h => hl r (by simp [h])) hg'
      ⟨hok.1, fun g hgm => hok.2 g (by simp [hgm])⟩
    cases gs with
    | nil =>
      obtain ⟨u1, u2⟩ := e5 rfl
      exact .inl ⟨u1, u2⟩
    | cons g gs =>
      right
      cases g with
      | nil => exact absurd rfl (hg'.2.1 [] (by simp))
      | cons l2 t2 =>
        obtain ⟨u1, u2, u3⟩ := e6 l2 (t2 ++ gs.flatten) (by simp)
        exact ⟨l2, t2, gs, rfl, u1, u2, u3⟩

end EDB
