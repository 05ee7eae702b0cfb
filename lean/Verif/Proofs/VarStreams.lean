import Verif.Model.VarStreams
import Verif.Proofs.VarReach
import Verif.Proofs.VarChunks
import Verif.Proofs.VarPhase

/-! Helper lemmas: several open streams of variable data. -/

namespace EDB

open Spec (Log VLog VOp VOut SOp SOut)

/-- Reading `n` bytes from the stream does not stop exactly at the end of a page with more data to come. -/
def PieceOk (c : Cfg) (st : Stream) (n : Nat) : Prop :=
  0 < min n (st.total - st.read) → st.read + min n (st.total - st.read) < st.total →
    (st.off % c.pageSize - c.vhdr + min n (st.total - st.read)) % c.vcap ≠ 0

/-- What is required of the state before an operation.  `wrap`: the variable data file may have wrapped; then a stream is
only read if no variable page was reclaimed since it was opened (`B`: the numbers of pages reclaimed at those times), and
the cached variable page is up to date. -/
def StreamOk (c : Cfg) (wrap : Prop) (d : Data) (x : Idx) (v : Var) (S : List (Option Stream)) (B : List Nat) : SOp → Prop
  | .op o => CacheFree c d v o ∧ CleanRead c d v o ∧ (wrap → WrapSafe c d v o) ∧ (o = .flush → IdxRoom c x)
  | .opn k => CleanRead c d v (.getVar k) ∧ (wrap → WrapSafe c d v (.getVar k))
  | .read i n => ∀ st, S[i]? = some (some st) →
      PieceOk c st n ∧ (wrap → VSync v ∧ B[i]? = some (Spec.dropped c.numVar c.B v.next))

/-- The numbers of pages reclaimed when the streams were opened. -/
def openedAt (c : Cfg) (B : List Nat) (v : Var) : SOp → List Nat
  | .opn _ => B ++ [Spec.dropped c.numVar c.B v.next]
  | _ => B

/-- `StreamOk` before every operation of the run. -/
def StreamsOk (c : Cfg) (wrap : Prop) : Data → Idx → Var → List (Option Stream) → List Nat → List SOp → Prop
  | _, _, _, _, _, [] => True
  | d, x, v, S, B, op :: ops => StreamOk c wrap d x v S B op ∧
      ∀ d' x' v' S' o, stepS c d x v S op = .ok (d', x', v', S', o) → StreamsOk c wrap d' x' v' S' (openedAt c B v' op) ops

/-- A stream stands for the bytes left of a piece of data, which starts on page `b` or later. -/
def StreamAt (c : Cfg) (g : Gh) (v : Var) : Option Stream → Option (List Byte) → Nat → Prop
  | none, none, _ => True
  | some st, some bs, b => ∃ e ∈ g.es, bs = e.bs.drop st.read ∧ st.total = e.bs.length ∧ st.read ≤ e.bs.length ∧
      e.fin ≤ v.next * c.vcap ∧ b ≤ e.a / c.vcap ∧ (st.read < e.bs.length → At c st.off (e.a + 4 + st.read))
  | _, _, _ => False

/-- All streams; no data before page `w` is delivered. -/
structure StreamsAt (c : Cfg) (w : Nat) (g : Gh) (v : Var) (S : List (Option Stream)) (R : List (Option (List Byte))) (B : List Nat) : Prop where
  len : R.length = S.length
  lenB : B.length = S.length
  at' : ∀ (i : Nat) s r b, S[i]? = some s → R[i]? = some r → B[i]? = some b → StreamAt c g v s r (max w b)

section
variable {c : Cfg} {lo lv K mn w : Nat} {E : Mode} {d : Data} {x : Idx} {v : Var} {l : VLog} {g : Gh}
variable {S : List (Option Stream)} {R : List (Option (List Byte))} {B : List Nat}

theorem StreamAt.mono {g' : Gh} {v' : Var} {s : Option Stream} {r : Option (List Byte)} {b : Nat} (h : StreamAt c g v s r b)
    (hes : ∀ e ∈ g.es, e ∈ g'.es) (hn : v.next ≤ v'.next) : StreamAt c g' v' s r b := by
  cases s with
  | none => cases r with
    | none => trivial
    | some _ => exact h.elim
  | some st => cases r with
    | none => exact h.elim
    | some bs =>
      obtain ⟨e, e1, e2, e3, e4, e5, e6, e7⟩ := h
      exact ⟨e, hes e e1, e2, e3, e4, le_trans e5 (Nat.mul_le_mul_right _ hn), e6, e7⟩

theorem StreamsAt.mono {g' : Gh} {v' : Var} (h : StreamsAt c w g v S R B) (hes : ∀ e ∈ g.es, e ∈ g'.es) (hn : v.next ≤ v'.next) :
    StreamsAt c w g' v' S R B :=
  ⟨h.len, h.lenB, fun i s r b h1 h2 h3 => (h.at' i s r b h1 h2 h3).mono hes hn⟩

theorem getElem?_snoc {α : Type} {L : List α} {a s : α} {i : Nat} (h : (L ++ [a])[i]? = some s) :
    L[i]? = some s ∨ (i = L.length ∧ s = a) := by
  rw [List.getElem?_append] at h
  split_ifs at h with hi
  · exact Or.inl h
  · right
    rw [List.getElem?_singleton] at h
    split_ifs at h with h0
    · exact ⟨by omega, (Option.some.inj h).symm⟩

theorem getElem?_lt {α : Type} {L : List α} {s : α} {i : Nat} (h : L[i]? = some s) : i < L.length := by
  by_contra hc
  rw [List.getElem?_eq_none (by omega)] at h
  cases h

theorem StreamsAt.push (h : StreamsAt c w g v S R B) {s : Option Stream} {r : Option (List Byte)} {b : Nat} (hs : StreamAt c g v s r (max w b)) :
    StreamsAt c w g v (S ++ [s]) (R ++ [r]) (B ++ [b]) := by
  refine ⟨by simp [h.len], by simp [h.lenB], ?_⟩
  intro i s' r' b' h1 h2 h3
  have hl := h.len
  have hl' := h.lenB
  rcases getElem?_snoc h1 with h1 | ⟨h1, rfl⟩
  · have := getElem?_lt h1
    rcases getElem?_snoc h2 with h2 | ⟨h2, -⟩
    · rcases getElem?_snoc h3 with h3 | ⟨h3, -⟩
      · exact h.at' i s' r' b' h1 h2 h3
      · omega
    · omega
  · rcases getElem?_snoc h2 with h2 | ⟨-, rfl⟩
    · have := getElem?_lt h2; omega
    · rcases getElem?_snoc h3 with h3 | ⟨-, rfl⟩
      · have := getElem?_lt h3; omega
      · exact hs

theorem StreamsAt.set (h : StreamsAt c w g v S R B) {j : Nat} {s : Option Stream} {r : Option (List Byte)}
    (hs : ∀ b, B[j]? = some b → StreamAt c g v s r (max w b)) : StreamsAt c w g v (S.set j s) (R.set j r) B := by
  refine ⟨by simp [h.len], by simp [h.lenB], ?_⟩
  intro i s' r' b' h1 h2 h3
  rw [List.getElem?_set] at h1 h2
  by_cases hij : j = i
  · subst hij
    rw [if_pos rfl] at h1 h2
    split_ifs at h1 h2
    cases h1; cases h2
    exact hs b' h3
  · rw [if_neg hij] at h1 h2
    exact h.at' i s' r' b' h1 h2 h3

/-- One read of a stream. -/
theorem streamStep (hv : c.VFile) (T : VTableM c lo lv K mn E d v l g) {st : Stream} {bs : List Byte} {b n : Nat}
    (h : StreamAt c g v (some st) (some bs) b) (hp : PieceOk c st n) (hs : VSync v) (hb : g.vmin ≤ b ∨ g.vmin = 0) :
    ∃ v' st', streamRead c v st n = .ok (v', st', bs.take n) ∧ VSame v v' ∧ VSync v' ∧ StreamAt c g v' (some st') (some (bs.drop n)) b := by
  obtain ⟨e, e1, rfl, e3, e4, e5, e6, e7⟩ := h
  have eo := T.ents.ok e e1
  by_cases hr : st.read < e.bs.length
  · have hat := e7 hr
    have hfin := e5
    unfold Ent.fin at hfin
    have hH : Holds c v g.s (e.a + 4 + st.read) (min n (st.total - st.read)) := by
      refine T.inv.holds hv ?_ (by omega)
      have : e.a / c.vcap ≤ (e.a + 4 + st.read) / c.vcap := Nat.div_le_div_right (by omega)
      rcases hb with hb | hb <;> omega
    obtain ⟨v', st', r1, r2, r3, r4, r5, r6⟩ := streamRead_ok (len := n) hv hs hat hH
    have hmin : min n (st.total - st.read) = min n (e.bs.length - st.read) := by rw [e3]
    have k1 : List.take (min n (e.bs.length - st.read)) (List.drop st.read e.bs) = List.take n (List.drop st.read e.bs) := by
      rw [← List.length_drop, ← List.take_take, List.take_length]
    have k2 : List.drop (st.read + min n (e.bs.length - st.read)) e.bs = List.drop n (List.drop st.read e.bs) := by
      rw [List.drop_drop]
      by_cases hn : n ≤ e.bs.length - st.read
      · rw [Nat.min_eq_left hn]
      · rw [List.drop_eq_nil_of_le (by omega), List.drop_eq_nil_of_le (by omega)]
    refine ⟨v', st', ?_, r2, r3, e, e1, ?_, by omega, by omega, by rw [r2.next]; exact e5, e6, ?_⟩
    · rw [r1, hmin, slice_sub eo.bytes (by omega), k1]
    · rw [r5, hmin, k2]
    · intro hlt
      rw [r5] at hlt ⊢
      rcases r6 with h6 | ⟨h6, h7⟩
      · rw [← Nat.add_assoc]; exact h6
      · refine absurd ?_ (hp h6 (by omega))
        rw [hat.1, Nat.add_sub_cancel_left, Nat.mod_add_mod]
        exact h7
  · obtain ⟨v', r1, r2, r3⟩ := streamRead_done (c := c) hs (st := st) (by omega) n
    have hnil : e.bs.drop st.read = [] := List.drop_eq_nil_of_le (by omega)
    refine ⟨v', st, ?_, r2, r3, e, e1, ?_, e3, e4, by rw [r2.next]; exact e5, e6, e7⟩
    · rw [r1, hnil]; simp
    · rw [hnil]; simp

/-- Opening a stream. -/
theorem StAns.at {v' : Var} {g' : Gh} {k b : Nat} {r : Int} {st : Option Stream} (h : StAns c g' v' k r st) (hb : b ≤ g'.vmin) :
    ∃ bs, VarAns c g' k r bs ∧ StreamAt c g' v' st bs b ∧ bs.isSome = st.isSome := by
  rcases h with ⟨h1, h2, h3⟩ | ⟨e, e1, e2, ⟨h1, h2, h3⟩ | ⟨h1, h2, h3, s, rfl, h4, h5, h6⟩⟩
  · exact ⟨none, Or.inl ⟨h1, rfl, h3⟩, by rw [h2]; trivial, by rw [h2]; rfl⟩
  · exact ⟨none, Or.inr ⟨e, e1, e2, Or.inl ⟨h1, h2, rfl⟩⟩, by rw [h3]; trivial, by rw [h3]; rfl⟩
  · refine ⟨some e.bs, Or.inr ⟨e, e1, e2, Or.inr ⟨h1, h2, rfl⟩⟩, ⟨e, e1, by rw [h5]; rfl, h4, by omega, h3, by omega, ?_⟩, rfl⟩
    intro _
    rw [h5]; exact h6

theorem historyS_ok (hok : c.Ok K) (hv : c.VFile) (hdvd : c.B ∣ mn) (hspl : mn = 0 ∨ c.maxErr ≤ 1) {P : Nat} (hB : Bounds c lo K P) (h128 : c.maxRec ≤ 128)
    {ans : VLog → Nat → VOut → Prop}
    (hans : ∀ l k o, Spec.vAnswerOrGone (l.log.live (max mn (Spec.dropped c.N c.B l.log.pages.length))) l.var k o →
      (¬ E → o = Spec.vAnswer (l.log.live (max mn (Spec.dropped c.N c.B l.log.pages.length))) l.var k) → ans l k o) :
    ∀ (ops : List SOp) (d : Data) (x : Idx) (v : Var) (l : VLog) (g : Gh) (S : List (Option Stream)) (R : List (Option (List Byte))) (B : List Nat),
      VTableM c lo lv K mn E d v l g → StreamsAt c E.lim g v S R B →
      d.next + ops.length ≤ P → ClientV c lo K (Spec.tableOps ops) → (∀ k ∈ Spec.offeredV (Spec.tableOps ops), lv ≤ k) → (∀ r ∈ l.log.all, ∀ k ∈ Spec.offeredV (Spec.tableOps ops), r.1 < k) →
      (E ∨ g.s.length + varNeed c (pageCount d.wbuf) (Spec.tableOps ops) ≤ c.numVar * c.vcap) → StreamsOk c E d x v S B ops →
      Spec.SRun (fun L => L.live (max mn (Spec.dropped c.N c.B L.pages.length))) ans c.maxRec l R (historyS c d x v S ops) := by
  intro ops
  induction ops with
  | nil => intros; exact trivial
  | cons op ops ih =>
    intro d x v l g S R B T A hP C hlv hgt hroom hg
    rw [List.length_cons] at hP
    have hdrop := T.tab.dropped_max hok.B0 hdvd
    obtain ⟨hg1, hg2⟩ := hg
    unfold historyS
    cases op with
    | op o =>
      obtain ⟨p1, p2, p3, p4⟩ := hg1
      have hstep := T.stepX hok hspl hv hB h128 x (op := o) (ops := Spec.tableOps ops) (by omega) C hlv hgt p1 p3 p4 (m := 0) hroom
      obtain ⟨d', x', v', l', g', out, e, hobs, hn, ⟨t, ht, -⟩, hes, -, hnext⟩ := hstep
      obtain ⟨T', n1, n2, n3⟩ := hnext (fun k h => by subst h; exact p2)
      have e' : stepS c d x v S (.op o) = .ok (d', x', v', S, .res out) := by
        simp only [stepS, e, Res.ok_bind]
      have hih := ih d' x' v' l' g' S R B T' (A.mono (fun e he => by rw [ht]; exact List.mem_append_left _ he) hn) (by omega) C.tail (fun k hk => hlv k (offeredV_tail hk)) n2 n3
        (hg2 _ _ _ _ _ e')
      simp only [e']
      cases o with
      | put k a b =>
        rcases hobs with ⟨rfl, rfl⟩ | ⟨rfl, rfl, hm⟩
        · exact Or.inl ⟨rfl, hih⟩
        · exact Or.inr ⟨rfl, hm, hih⟩
      | flush =>
        obtain ⟨rfl, rfl⟩ := hobs
        exact ⟨rfl, hih⟩
      | get k =>
        obtain ⟨rfl, r, out, rfl, hr⟩ := hobs
        exact ⟨⟨r, out, rfl, by simp only [← hdrop]; exact hr⟩, hih⟩
      | getVar k =>
        obtain ⟨hes1, hes2, -, -⟩ := hes k rfl
        obtain ⟨a1, a2⟩ := VObs.answer T (L := l.log.live (max mn (Spec.dropped c.N c.B l.log.pages.length))) (by rw [← hdrop]) hes1 hobs
        obtain ⟨rfl, -⟩ := hobs
        exact ⟨⟨out, rfl, hans _ _ _ a1 (fun hE => a2 (hes2.resolve_right hE))⟩, hih⟩
    | opn k =>
      obtain ⟨p1, p2⟩ := hg1
      have hk : k < K := C.getVar k (by simp [Spec.tableOps])
      have hneed : varNeed c (pageCount d.wbuf) (Spec.tableOps (SOp.opn k :: ops)) = c.vcap + varNeed c (pageCount d.wbuf) (Spec.tableOps ops) := by
        simp only [Spec.tableOps, varNeed, opBytes, Spec.offeredV]
        omega
      rw [hneed] at hroom
      have hr1 : RoomFor c E (v.next + 1) := room_next hv T hroom (by omega)
      have hs : VSync (readFrom c d v k) := by
        by_cases hE : E
        · exact p2 hE
        · exact T.sync hv hB.key hE k hr1
      obtain ⟨d', v', g', r, out, st, f1, f2, f3, f4, f5, f6, f7, f8, f9, f10, f11, f12⟩ := T.getVarCore hok hv hB (by omega) h128 hk hs hr1
      have T' := f5 p1
      have e' : stepS c d x v S (.opn k) = .ok (d', x, v', S ++ [st], .opened r out st.isSome) := by
        simp only [stepS, f1, Res.ok_bind]
      have hb : max E.lim (Spec.dropped c.numVar c.B v'.next) ≤ g'.vmin := le_of_eq (f2.vmin_max hv).symm
      have A' := A.mono (fun e he => by rw [f6]; exact he) f8
      have hcount : pageCount d.wbuf = l.log.buf.length := by rw [← T.tab.sim.buf, recs_length]
      have hcount' : pageCount d'.wbuf = l.log.buf.length := by rw [← T'.tab.sim.buf, recs_length]
      obtain ⟨bs, hbs, hat, hsome⟩ : ∃ bs, VObs c d l g' (.getVar k) (.gotVar r out bs) l ∧
          StreamAt c g' v' st bs (max E.lim (Spec.dropped c.numVar c.B v'.next)) ∧ bs.isSome = st.isSome := by
        cases hl : Spec.lookup (l.log.live d.min) k with
        | none =>
          rw [hl] at f12
          obtain ⟨q1, q2, q3⟩ := f12
          refine ⟨none, ⟨rfl, r, out, none, rfl, ?_⟩, by rw [q3]; trivial, by rw [q3]; rfl⟩
          rw [hl]; exact ⟨q1, q2, rfl⟩
        | some a =>
          rw [hl] at f12
          obtain ⟨q1, q2⟩ := f12
          obtain ⟨bs, w1, w2, w3⟩ := q2.at hb
          refine ⟨bs, ⟨rfl, r, out, bs, rfl, ?_⟩, w2, w3⟩
          rw [hl]; exact ⟨q1, w1⟩
      obtain ⟨a1, a2⟩ := VObs.answer T (L := l.log.live (max mn (Spec.dropped c.N c.B l.log.pages.length))) (by rw [← hdrop]) f6 hbs
      have hih := ih d' x v' l g' (S ++ [st]) (R ++ [bs]) _ T' (A'.push hat) (by omega) C.tail hlv hgt
        (hroom.imp id (fun h => by rw [hcount', ← hcount]; omega)) (hg2 _ _ _ _ _ e')
      simp only [e']
      exact ⟨r, out, bs, by rw [hsome], hans _ _ _ a1 (fun hE => a2 (f7.resolve_right hE)), hih⟩
    | read i n =>
      have hlen := A.len
      cases hS : S[i]? with
      | none =>
        have hR : R[i]? = none := by
          rw [List.getElem?_eq_none_iff] at hS ⊢
          omega
        have e' : stepS c d x v S (.read i n) = .ok (d, x, v, S, .noStream) := by
          simp only [stepS, hS]
        simp only [e']
        unfold Spec.SRun
        rw [hR]
        exact ⟨rfl, ih d x v l g S R B T A (by omega) C hlv hgt hroom (hg2 _ _ _ _ _ e')⟩
      | some s =>
        have hi := getElem?_lt hS
        have hR : R[i]? = some R[i] := List.getElem?_eq_getElem (by omega)
        have hBl : i < B.length := by rw [A.lenB]; exact hi
        have hBi : B[i]? = some B[i] := List.getElem?_eq_getElem hBl
        have hat := A.at' i _ _ _ hS hR hBi
        cases s with
        | none =>
          have e' : stepS c d x v S (.read i n) = .ok (d, x, v, S, .noStream) := by
            simp only [stepS, hS]
          simp only [e']
          unfold Spec.SRun
          rw [hR]
          cases hr : R[i] with
          | none => exact ⟨rfl, ih d x v l g S R B T A (by omega) C hlv hgt hroom (hg2 _ _ _ _ _ e')⟩
          | some bs => rw [hr] at hat; exact hat.elim
        | some st =>
          obtain ⟨p1, p2⟩ := hg1 st hS
          cases hr : R[i] with
          | none => rw [hr] at hat; exact hat.elim
          | some bs =>
            rw [hr] at hat
            have hm := T.inv.vmin_max hv
            have hsb : VSync v ∧ (g.vmin ≤ max E.lim B[i] ∨ g.vmin = 0) := by
              by_cases hE : E
              · obtain ⟨q1, q2⟩ := p2 hE
                rw [hBi] at q2
                exact ⟨q1, Or.inl (by rw [hm, Option.some.inj q2])⟩
              · have h0 := T.inv.wrap.resolve_right hE
                exact ⟨T.inv.sync hv h0, Or.inr h0⟩
            obtain ⟨v', st', r1, r2, r3, r4⟩ := streamStep hv T hat p1 hsb.1 hsb.2
            have e' : stepS c d x v S (.read i n) = .ok (d, x, v', S.set i (some st'), .bytes (bs.take n)) := by
              simp only [stepS, hS, r1, Res.ok_bind]
            have A' := A.mono (v' := v') (fun _ h => h) (le_of_eq r2.next.symm)
            have hih := ih d x v' l g (S.set i (some st')) (R.set i (some (bs.drop n))) B (T.recache r2 r3)
              (A'.set (fun b hb => by rw [hBi] at hb; cases hb; exact r4)) (by omega) C hlv hgt hroom (hg2 _ _ _ _ _ e')
            simp only [e']
            unfold Spec.SRun
            rw [hR, hr]
            exact ⟨rfl, hih⟩

theorem StreamsAt.nil (c : Cfg) (w : Nat) (g : Gh) (v : Var) : StreamsAt c w g v [] [] [] :=
  ⟨rfl, rfl, fun i s r b h => by simp at h⟩

end

end EDB
