import Verif.Insert.Model
import Verif.Insert.Spec
import Verif.CopyIn.Hosts
import Verif.Gen.Lemmas
import Verif.Render.Dot

/-!
# The loops of `insert_graph`
-/

namespace Verif.Insert

open Verif (Direction)
open Verif.PG Verif.Multi Verif.View Verif.CopyIn
open Verif.Render (OffsetsOk)

variable {S E F : Type}

/-! ## The links in the order of the loop -/

/-- The link with its outgoing end first. -/
def orient (V : GView F) (l : F × F) : F × F :=
  if V.portDirection (V.toPort l.1) = some .outgoing then l else (l.2, l.1)

/-- The links made for `n` if the nodes of `done` are inserted. -/
def here (V : GView F) (done : List Nat) (n : Nat) : List (F × F) :=
  (V.allLinks n).filter fun l => (done.any fun m => decide (V.portNode (V.toPort l.2) = some m))

/-- All links in order. -/
def todo (V : GView F) : List Nat → List Nat → List (F × F)
  | _, [] => []
  | done, n :: ns => (here V (n :: done) n).map (orient V) ++ todo V (n :: done) ns

variable {V : GView F}

theorem mem_here (ok : V.Ok) {done : List Nat} {n : Nat} {e f : F} : (e, f) ∈ here V done n ↔
    V.Shows e f ∧ V.On e n ∧ (∃ m ∈ done, V.On f m) ∧ ¬ (V.On f n ∧ V.portDirection (V.toPort f) = some .outgoing) := by
  unfold here
  rw [List.mem_filter, (allLinks_ok ok n).2]
  simp only [List.any_eq_true, decide_eq_true_eq]
  unfold GView.On
  tauto

theorem On.inj {e : F} {n m : Nat} (h1 : V.On e n) (h2 : V.On e m) : n = m := by
  unfold GView.On at h1 h2
  rw [h1] at h2; exact Option.some.inj h2

theorem shows_rev (ok : V.Ok) {e f : F} (h : V.Shows e f) :
    (V.portDirection (V.toPort e) = some .outgoing ∧ V.portDirection (V.toPort f) = some .incoming) ∨
    (V.portDirection (V.toPort e) = some .incoming ∧ V.portDirection (V.toPort f) = some .outgoing) := by
  obtain ⟨n, d, m, -, h1, -, -, h2, -⟩ := ok.shows_dir e f h
  cases d
  · exact .inr ⟨h1, h2⟩
  · exact .inl ⟨h1, h2⟩

theorem mem_oriented (ok : V.Ok) {done : List Nat} {n : Nat} {e f : F} :
    (e, f) ∈ (here V (n :: done) n).map (orient V) ↔ V.Shows e f ∧ V.portDirection (V.toPort e) = some .outgoing ∧
      ((V.On e n ∧ ∃ m ∈ n :: done, V.On f m) ∨ (V.On f n ∧ ∃ m ∈ n :: done, V.On e m)) := by
  rw [List.mem_map]
  constructor
  · rintro ⟨⟨a, b⟩, h1, h2⟩
    obtain ⟨g1, g2, g3, g4⟩ := (mem_here ok).1 h1
    unfold orient at h2
    split at h2
    · next hd =>
      cases h2
      exact ⟨g1, hd, .inl ⟨g2, g3⟩⟩
    · next hd =>
      cases h2
      rcases shows_rev ok g1 with h | h
      · exact absurd h.1 hd
      · exact ⟨ok.shows_sym _ _ g1, h.2, .inr ⟨g2, g3⟩⟩
  · rintro ⟨h1, h2, h3⟩
    have hf : V.portDirection (V.toPort f) = some .incoming := by
      rcases shows_rev ok h1 with h | h
      · exact h.2
      · rw [h.1] at h2; cases h2
    by_cases hen : V.On e n
    · refine ⟨(e, f), (mem_here ok).2 ⟨h1, hen, ?_, ?_⟩, by simp [orient, h2]⟩
      · rcases h3 with h3 | h3
        · exact h3.2
        · exact ⟨n, by simp, h3.1⟩
      · rw [hf]; rintro ⟨-, h⟩; cases h
    · rcases h3 with h3 | h3
      · exact absurd h3.1 hen
      · refine ⟨(f, e), (mem_here ok).2 ⟨ok.shows_sym _ _ h1, h3.1, h3.2, fun h => hen h.1⟩, ?_⟩
        simp [orient, hf]

theorem here_nodup (ok : V.Ok) (done : List Nat) (n : Nat) : ((here V done n).map (orient V)).Nodup := by
  have h1 : (here V done n).Nodup := (allLinks_ok ok n).1.filter _
  refine List.Nodup.map_on ?_ h1
  rintro ⟨a, b⟩ ha ⟨c, d⟩ hc h
  obtain ⟨a1, a2, -, a4⟩ := (mem_here ok).1 ha
  obtain ⟨c1, c2, -, c4⟩ := (mem_here ok).1 hc
  unfold orient at h
  simp only at h
  split at h
  · next hd =>
    split at h
    · exact h
    · cases h
      exact absurd ⟨a2, hd⟩ c4
  · next hd =>
    split at h
    · next hd' =>
      cases h
      exact absurd ⟨c2, hd'⟩ a4
    · cases h; rfl

theorem mem_todo (ok : V.Ok) {e f : F} : ∀ {ns done : List Nat}, (e, f) ∈ todo V done ns ↔
    V.Shows e f ∧ V.portDirection (V.toPort e) = some .outgoing ∧
      ((∃ m ∈ ns, V.On e m ∧ ∃ m' ∈ done ++ ns, V.On f m') ∨ (∃ m ∈ ns, V.On f m ∧ ∃ m' ∈ done ++ ns, V.On e m'))
  | [], done => by simp [todo]
  | n :: ns, done => by
    unfold todo
    rw [List.mem_append, mem_oriented ok, mem_todo ok]
    constructor
    · rintro (⟨h1, h2, h3⟩ | ⟨h1, h2, h3⟩)
      · refine ⟨h1, h2, ?_⟩
        rcases h3 with ⟨h3, m, hm, h4⟩ | ⟨h3, m, hm, h4⟩
        · refine .inl ⟨n, by simp, h3, m, ?_, h4⟩
          simp at hm ⊢; tauto
        · refine .inr ⟨n, by simp, h3, m, ?_, h4⟩
          simp at hm ⊢; tauto
      · refine ⟨h1, h2, ?_⟩
        rcases h3 with ⟨m, hm, h3, m', hm', h4⟩ | ⟨m, hm, h3, m', hm', h4⟩
        · refine .inl ⟨m, by simp [hm], h3, m', ?_, h4⟩
          simp at hm' ⊢; tauto
        · refine .inr ⟨m, by simp [hm], h3, m', ?_, h4⟩
          simp at hm' ⊢; tauto
    · rintro ⟨h1, h2, h3⟩
      obtain ⟨x, -, y, hx, -, -, hy, -⟩ := ok.shows_dir e f h1
      have key : (x ∈ n :: ns ∧ y ∈ done ++ n :: ns) ∨ (y ∈ n :: ns ∧ x ∈ done ++ n :: ns) := by
        rcases h3 with ⟨m, hm, h3, m', hm', h4⟩ | ⟨m, hm, h3, m', hm', h4⟩
        · obtain rfl := On.inj h3 hx
          obtain rfl := On.inj h4 hy
          exact .inl ⟨hm, hm'⟩
        · obtain rfl := On.inj h3 hy
          obtain rfl := On.inj h4 hx
          exact .inr ⟨hm, hm'⟩
      by_cases hxs : x ∈ ns
      · right
        refine ⟨h1, h2, .inl ⟨x, hxs, hx, y, ?_, hy⟩⟩
        simp at key ⊢; tauto
      · by_cases hys : y ∈ ns
        · right
          refine ⟨h1, h2, .inr ⟨y, hys, hy, x, ?_, hx⟩⟩
          simp at key ⊢; tauto
        · left
          refine ⟨h1, h2, ?_⟩
          by_cases hxn : x = n
          · subst hxn
            refine .inl ⟨hx, y, ?_, hy⟩
            simp at key ⊢; tauto
          · have hyn : y = n := by simp at key; tauto
            subst hyn
            refine .inr ⟨hy, x, ?_, hx⟩
            simp at key ⊢; tauto

theorem todo_nodup (ok : V.Ok) : ∀ {ns done : List Nat}, (done ++ ns).Nodup → (todo V done ns).Nodup
  | [], _, _ => by simp [todo]
  | n :: ns, done, hnd => by
    have hnd' : (n :: done ++ ns).Nodup := by
      have : (done ++ n :: ns).Perm (n :: done ++ ns) := by simpa using List.perm_middle
      exact this.nodup_iff.1 hnd
    unfold todo
    rw [List.nodup_append]
    refine ⟨here_nodup ok _ _, todo_nodup ok hnd', ?_⟩
    rintro ⟨e, f⟩ h1 _ h2 rfl
    obtain ⟨-, -, g3⟩ := (mem_oriented ok).1 h1
    obtain ⟨-, -, k3⟩ := (mem_todo ok).1 h2
    have hdis : ∀ x, x ∈ n :: done → x ∉ ns := fun x hx hx' => (List.nodup_append.1 hnd').2.2 x hx x hx' rfl
    have hin : ∀ m, (V.On e m ∨ V.On f m) → m ∈ n :: done := by
      rcases g3 with ⟨a, x, hx, b⟩ | ⟨a, x, hx, b⟩
      · rintro m (hm | hm)
        · rw [On.inj hm a]; simp
        · rw [On.inj hm b]; exact hx
      · rintro m (hm | hm)
        · rw [On.inj hm b]; exact hx
        · rw [On.inj hm a]; simp
    rcases k3 with ⟨m, hm, h3, -⟩ | ⟨m, hm, h3, -⟩
    · exact hdis m (hin m (.inl h3)) hm
    · exact hdis m (hin m (.inr h3)) hm

theorem todo_lists (ok : V.Ok) : V.ListsLinks (todo V [] V.nodes) := by
  refine ⟨todo_nodup ok (by simpa using ok.nodes_nodup), fun e f => ?_⟩
  rw [mem_todo ok]
  constructor
  · rintro ⟨h1, h2, -⟩; exact ⟨h1, h2⟩
  · rintro ⟨h1, h2⟩
    obtain ⟨x, -, y, hx, -, hxn, hy, -, hyn⟩ := ok.shows_dir e f h1
    exact ⟨h1, h2, .inl ⟨x, (ok.mem_nodes x).2 hxn, hx, y, by simpa using (ok.mem_nodes y).2 hyn, hy⟩⟩

/-! ## The host -/

variable {H : Host S E} {Good : S → Prop} {obs : S → GObs E} {cap : S → Nat → Prop} {single : Prop} {maxOff : Nat}

/-- A `PortGraph` refuses to link a port that is linked. -/
def Refuses (H : Host S E) (Good : S → Prop) (obs : S → GObs E) (single : Prop) : Prop :=
  single → ∀ s, Good s → ∀ a b x y, (obs s).pos a x → (obs s).pos b y → x.2.1 ≠ y.2.1 →
    ((∃ e z, H.toPort e = a ∧ (obs s).link e z) ∨ ∃ e z, H.toPort e = b ∧ (obs s).link e z) →
    ∃ p, H.linkPorts s a b = some (.error (.alreadyLinked p), s) ∧ (p = a ∨ p = b) ∧ ∃ e z, H.toPort e = p ∧ (obs s).link e z

/-- After one more node. -/
theorem grown_add {tp : E → Nat} {o o1 o2 : GObs E} {M : List (Nat × Nat)} {T : List (F × F)} (G : Grown tp V o o1 M T) {n n' : Nat}
    (hn : n ∉ M.map (·.1)) (h4 : ¬ o1.node n') (h5 : ∀ x, o2.node x ↔ x = n' ∨ o1.node x)
    (h6 : ∀ p e, e.1 ≠ n' → (o2.pos p e ↔ o1.pos p e))
    (h7 : ∀ d k, (∃ p, o2.pos p (n', d, k)) ↔ ∃ p, At V p n d k) (h9 : ∀ e f, o2.link e f ↔ o1.link e f)
    (hpos : ∀ p e, o1.pos p e → o1.node e.1) : Grown tp V o o2 ((n, n') :: M) T := by
  have hn' : n' ∉ M.map (·.2) := fun h => h4 ((G.node n').2 (.inr h))
  have hlift : ∀ p p', Stands V o1 M p p' → Stands V o2 ((n, n') :: M) p p' := by
    rintro p p' ⟨a, d, k, b, g1, g2, g3⟩
    refine ⟨a, d, k, b, g1, List.mem_cons_of_mem _ g2, (h6 _ _ ?_).2 g3⟩
    rintro rfl
    exact h4 (hpos _ _ g3)
  obtain ⟨N, l1, l2, l3, l4⟩ := G.links
  refine ⟨?_, ?_, ?_, ?_, ?_, ?_, N, ?_, l2, l3, ?_⟩
  · rw [List.map_cons, List.nodup_cons]; exact ⟨hn, G.keys⟩
  · rw [List.map_cons, List.nodup_cons]; exact ⟨hn', G.vals⟩
  · intro x hx
    simp only [List.map_cons, List.mem_cons] at hx
    rcases hx with rfl | hx
    · exact fun h => h4 ((G.node _).2 (.inl h))
    · exact G.fresh x hx
  · intro x
    rw [h5, G.node]
    simp only [List.map_cons, List.mem_cons]; tauto
  · intro p e he
    simp only [List.map_cons, List.mem_cons, not_or] at he
    rw [h6 p e he.1, G.pos_old p e he.2]
  · intro a b hm d k
    simp only [List.mem_cons, Prod.mk.injEq] at hm
    rcases hm with ⟨rfl, rfl⟩ | hm
    · exact h7 d k
    · rw [← G.pos_new a b hm d k]
      refine exists_congr fun p => h6 p _ ?_
      rintro rfl
      exact hn' (List.mem_map.2 ⟨_, hm, rfl⟩)
  · exact l1.imp fun t u h => ⟨hlift _ _ h.1, hlift _ _ h.2⟩
  · intro z w; rw [h9, l4]

/-- After one more link. -/
theorem grown_link {tp : E → Nat} {o o1 o2 : GObs E} {M : List (Nat × Nat)} {T : List (F × F)} (G : Grown tp V o o1 M T)
    {t : F × F} {e f : E} (hne : e ≠ f) (hn : ∀ x, o2.node x ↔ o1.node x) (hp : ∀ p x, o2.pos p x ↔ o1.pos p x)
    (he : ∀ z, ¬ o1.link e z) (hf : ∀ z, ¬ o1.link f z)
    (hl : ∀ z w, o2.link z w ↔ o1.link z w ∨ (z = e ∧ w = f) ∨ (z = f ∧ w = e))
    (st : Stands V o1 M (V.toPort t.1) (tp e) ∧ Stands V o1 M (V.toPort t.2) (tp f)) : Grown tp V o o2 M (T ++ [t]) := by
  have hlift : ∀ p p', Stands V o1 M p p' → Stands V o2 M p p' := by
    rintro p p' ⟨a, d, k, b, g1, g2, g3⟩
    exact ⟨a, d, k, b, g1, g2, (hp _ _).2 g3⟩
  obtain ⟨N, l1, l2, l3, l4⟩ := G.links
  have key : ∀ x, (∀ z, ¬ o1.link x z) → x ∉ N.map (·.1) ++ N.map (·.2) := by
    intro x hx hm
    rw [List.mem_append, List.mem_map, List.mem_map] at hm
    rcases hm with ⟨⟨u, v⟩, hm, rfl⟩ | ⟨⟨u, v⟩, hm, rfl⟩
    · exact hx v ((l4 _ _).2 (.inr (.inl hm)))
    · exact hx u ((l4 _ _).2 (.inr (.inr hm)))
  have hxN := key e he
  have hyN := key f hf
  refine ⟨G.keys, G.vals, G.fresh, fun x => (hn x).trans (G.node x), fun p x hx => (hp p x).trans (G.pos_old p x hx), ?_,
    N ++ [(e, f)], ?_, ?_, ?_, ?_⟩
  · intro a b hm d k
    rw [← G.pos_new a b hm d k]
    exact exists_congr fun p => hp p _
  · exact List.rel_append (l1.imp fun t u h => ⟨hlift _ _ h.1, hlift _ _ h.2⟩)
      (.cons ⟨hlift _ _ st.1, hlift _ _ st.2⟩ .nil)
  · rw [List.nodup_append] at l2 ⊢
    simp only [List.map_append, List.map_cons, List.map_nil, List.mem_append, not_or] at hxN hyN ⊢
    refine ⟨List.nodup_append.2 ⟨l2.1, by simp, ?_⟩, List.nodup_append.2 ⟨l2.2.1, by simp, ?_⟩, ?_⟩
    · intro u hu v hv; simp at hv; subst hv; rintro rfl; exact hxN.1 hu
    · intro u hu v hv; simp at hv; subst hv; rintro rfl; exact hyN.2 hu
    · rintro u (hu | hu) v (hv | hv)
      · exact l2.2.2 u hu v hv
      · simp at hv; subst hv; rintro rfl; exact hyN.1 hu
      · simp at hu; subst hu; rintro rfl; exact hxN.2 hv
      · simp at hu hv; subst hu hv; exact hne
  · intro a b hab
    rw [List.mem_append, List.mem_singleton] at hab
    rcases hab with hab | hab
    · exact l3 a b hab
    · cases hab
      exact ⟨fun z h => he z ((l4 _ _).2 (.inl h)), fun z h => hf z ((l4 _ _).2 (.inl h))⟩
  · intro z w
    rw [hl, l4]
    simp only [List.mem_append, List.mem_singleton, Prod.mk.injEq]
    tauto

/-- What an interrupted call leaves. -/
def Failed (H : Host S E) (V : GView F) (Good : S → Prop) (obs : S → GObs E) (o : GObs E) (err : LinkError) (s : S) : Prop :=
  Good s ∧ ∃ p, err = .alreadyLinked p ∧ Interrupted H.toPort V o (obs s) p

theorem insertLinks_ok (L : Law H Good obs cap single maxOff) (R : Refuses H Good obs single) (ok : V.Ok) (off : OffsetsOk V)
    {o : GObs E} {M : List (Nat × Nat)} {n new : Nat} (hM : (n, new) ∈ M) (hMn : ∀ n n', (n, n') ∈ M → V.containsNode n = true) {r : Nat} :
    ∀ (ls : List (F × F)) (T rest : List (F × F)) (s : S), (∀ l ∈ ls, V.Shows l.1 l.2 ∧ V.On l.1 n) →
    T ++ ((ls.filter fun l => ((M.map (·.1)).any fun m => decide (V.portNode (V.toPort l.2) = some m))).map (orient V) ++ rest) =
      todo V [] V.nodes → rest.length = r →
    Good s → cap s (((ls.filter fun l => ((M.map (·.1)).any fun m => decide (V.portNode (V.toPort l.2) = some m))).map (orient V)).length + r) →
    Grown H.toPort V o (obs s) M T →
    (∃ s', insertLinks H V M new ls s = some (.ok (), s') ∧ Good s' ∧ cap s' r ∧
      Grown H.toPort V o (obs s') M (T ++ (ls.filter fun l => ((M.map (·.1)).any fun m => decide (V.portNode (V.toPort l.2) = some m))).map (orient V))) ∨
    (single ∧ ∃ err s', insertLinks H V M new ls s = some (.error err, s') ∧ Failed H V Good obs o err s')
  | [], T, rest, s, _, _, _, hg, hc, G => .inl ⟨s, rfl, hg, by simpa using hc, by simpa using G⟩
  | (e, f) :: ls, T, rest, s, hls, hT, hr, hg, hc, G => by
    obtain ⟨hsh, hen⟩ := hls (e, f) (by simp)
    obtain ⟨n1, d, m, hen', hde, -, hfm, hdf, -⟩ := ok.shows_dir e f hsh
    obtain rfl := On.inj hen hen'
    obtain ⟨k, hk1, hk2⟩ := off _ _ _ hen hde
    obtain ⟨j, hj1, hj2⟩ := off _ _ _ hfm hdf
    by_cases hmM : m ∈ M.map (·.1)
    · have hflt : ((e, f) :: ls).filter (fun l => ((M.map (·.1)).any fun m => decide (V.portNode (V.toPort l.2) = some m))) =
          (e, f) :: ls.filter (fun l => ((M.map (·.1)).any fun m => decide (V.portNode (V.toPort l.2) = some m))) := by
        rw [List.filter_cons_of_pos]
        simp only [List.any_eq_true, decide_eq_true_eq]
        exact ⟨m, hmM, hfm⟩
      rw [hflt] at hT hc ⊢
      obtain ⟨m', hlk, hmm⟩ := Gen.lookup_mem hmM
      obtain ⟨p, hp⟩ := (G.pos_new _ _ hM d k).2 ⟨_, hen, hk2⟩
      obtain ⟨q, hq⟩ := (G.pos_new _ _ hmm d.reverse j).2 ⟨_, hfm, hj2⟩
      have hstp : Stands V (obs s) M (V.toPort e) p := ⟨_, _, _, _, ⟨hen, hk2⟩, hM, hp⟩
      have hstq : Stands V (obs s) M (V.toPort f) q := ⟨_, _, _, _, ⟨hfm, hj2⟩, hmm, hq⟩
      have hdd : d ≠ d.reverse := by cases d <;> simp [Direction.reverse]
      have hcall : insertLinks H V M new ((e, f) :: ls) s = match H.linkPorts s p q with
          | none => none
          | some (.error e, s) => some (.error e, s)
          | some (.ok _, s) => insertLinks H V M new ls s := by
        rw [insertLinks]
        have hfm' : V.portNode (V.toPort f) = some m := hfm
        simp only [hfm', hlk, hk1, hj1, linkOffsets, L.index s hg _ _ _ _ hp, L.index s hg _ _ _ _ hq]
        rfl
      by_cases hbusy : single ∧ ((∃ e z, H.toPort e = p ∧ (obs s).link e z) ∨ ∃ e z, H.toPort e = q ∧ (obs s).link e z)
      · right
        obtain ⟨x, hx1, hx2, hx3⟩ := R hbusy.1 s hg p q _ _ hp hq hdd hbusy.2
        refine ⟨hbusy.1, .alreadyLinked x, s, ?_, hg, x, rfl, M, T, orient V (e, f), _, hMn, todo_lists ok, ?_, G, ?_, hx3⟩
        · rw [hcall, hx1]
        · rw [← hT]
          refine List.Sublist.append_left ?_ _
          simp
        · unfold orient
          rcases hx2 with rfl | rfl
          · split
            · exact .inl hstp
            · exact .inr hstp
          · split
            · exact .inr hstq
            · exact .inl hstq
      · have hfree : single → (∀ e z, H.toPort e = p → ¬ (obs s).link e z) ∧ ∀ e z, H.toPort e = q → ¬ (obs s).link e z := by
          intro hs
          refine ⟨fun e z h1 h2 => hbusy ⟨hs, .inl ⟨e, z, h1, h2⟩⟩, fun e z h1 h2 => hbusy ⟨hs, .inr ⟨e, z, h1, h2⟩⟩⟩
        obtain ⟨x, y, s', k1, k2, k3, k4, k5, k6, k7, k8, k9, k10⟩ := L.link_ok s hg
          (((ls.filter fun l => ((M.map (·.1)).any fun m => decide (V.portNode (V.toPort l.2) = some m))).map (orient V)).length + r)
          (by
            have : ∀ a b : Nat, a = b → cap s a → cap s b := fun a b h => h ▸ id
            refine this _ _ ?_ hc
            simp only [List.map_cons, List.length_cons]; omega) p q _ _ hp hq hdd hfree
        have hxy : x ≠ y := by
          rintro rfl
          have : p = q := by rw [← k4, ← k5]
          subst this
          have := L.pos_fun s hg _ _ _ hp hq
          simp [hdd] at this
        have G' : Grown H.toPort V o (obs s') M (T ++ [orient V (e, f)]) := by
          unfold orient
          split
          · exact grown_link G hxy k6 k7 k8 k9 k10 ⟨by rw [k4]; exact hstp, by rw [k5]; exact hstq⟩
          · refine grown_link G hxy.symm k6 k7 k9 k8 (fun z w => ?_) ⟨by rw [k5]; exact hstq, by rw [k4]; exact hstp⟩
            rw [k10]; tauto
        have ih := insertLinks_ok L R ok off hM hMn ls (T ++ [orient V (e, f)]) rest s'
          (fun l hl => hls l (List.mem_cons_of_mem _ hl)) (by rw [← hT]; simp) hr k2 k3 G'
        rw [hcall, k1]
        rcases ih with ⟨s1, i1, i2, i3, i4⟩ | ih
        · exact .inl ⟨s1, i1, i2, i3, by simpa using i4⟩
        · exact .inr ih
    · have hflt : ((e, f) :: ls).filter (fun l => ((M.map (·.1)).any fun m => decide (V.portNode (V.toPort l.2) = some m))) =
          ls.filter (fun l => ((M.map (·.1)).any fun m => decide (V.portNode (V.toPort l.2) = some m))) := by
        rw [List.filter_cons_of_neg]
        simp only [List.any_eq_true, decide_eq_true_eq]
        rintro ⟨m', hm', h⟩
        obtain rfl := On.inj (e := f) h hfm
        exact hmM hm'
      rw [hflt] at hT hc ⊢
      have hlk : M.lookup m = none := by
        rw [List.lookup_eq_none_iff]
        intro x hx
        rw [bne_iff_ne]
        rintro rfl
        exact hmM (List.mem_map.2 ⟨x, hx, rfl⟩)
      have hcall : insertLinks H V M new ((e, f) :: ls) s = insertLinks H V M new ls s := by
        rw [insertLinks]
        have hfm' : V.portNode (V.toPort f) = some m := hfm
        simp only [hfm', hlk]
      rw [hcall]
      exact insertLinks_ok L R ok off hM hMn ls T rest s (fun l hl => hls l (List.mem_cons_of_mem _ hl)) hT hr hg hc G

theorem at_iff (ok : V.Ok) {n : Nat} {d : Direction} {k : Nat} : (∃ p, At V p n d k) ↔ k < V.numPorts n d := by
  rw [ok.num_ports]
  constructor
  · rintro ⟨p, -, h⟩; exact (List.getElem?_eq_some_iff.1 h).1
  · intro h
    refine ⟨(V.ports n d)[k], ?_, List.getElem?_eq_getElem h⟩
    exact ((ok.mem_ports n d _).1 (List.getElem_mem h)).1

theorem insertNodes_ok (L : Law H Good obs cap single maxOff) (R : Refuses H Good obs single) (ok : V.Ok) (off : OffsetsOk V)
    (hle : ∀ n d, V.containsNode n = true → V.numPorts n d ≤ maxOff) {o : GObs E} :
    ∀ (ns : List Nat) (M : List (Nat × Nat)) (T : List (F × F)) (s : S),
    (M.map (·.1) ++ ns).Nodup → (∀ n n', (n, n') ∈ M → V.containsNode n = true) → (∀ n ∈ ns, V.containsNode n = true) →
    T ++ todo V (M.map (·.1)) ns = todo V [] V.nodes → Good s → cap s (todo V (M.map (·.1)) ns).length →
    Grown H.toPort V o (obs s) M T →
    (∃ M' s', insertNodes H V M ns s = some (.ok M', s') ∧ Good s' ∧ cap s' 0 ∧ (∀ n, n ∈ M'.map (·.1) ↔ n ∈ M.map (·.1) ∨ n ∈ ns) ∧
      Grown H.toPort V o (obs s') M' (todo V [] V.nodes)) ∨
    (single ∧ ∃ err s', insertNodes H V M ns s = some (.error err, s') ∧ Failed H V Good obs o err s')
  | [], M, T, s, _, _, _, hT, hg, hc, G => by
    left
    refine ⟨M, s, rfl, hg, by simpa [todo] using hc, by simp, ?_⟩
    rw [← hT]; simpa [todo] using G
  | n :: ns, M, T, s, hnd, hMn, hns, hT, hg, hc, G => by
    have hcn := hns n (by simp)
    obtain ⟨n', s', h1, h2, h3, h4, h5, h6, h7, h8, h9⟩ := L.add s hg _ hc _ _ (hle n .incoming hcn) (hle n .outgoing hcn)
    have hnM : n ∉ M.map (·.1) := fun h => (List.nodup_append.1 hnd).2.2 n h n (by simp) rfl
    have G1 : Grown H.toPort V o (obs s') ((n, n') :: M) T := by
      refine grown_add G hnM h4 h5 h6 ?_ h9 fun p e => L.pos_node s hg p e
      intro d k
      rw [at_iff ok]
      cases d
      · exact h7 k
      · exact h8 k
    have hM1 : ∀ a b, (a, b) ∈ (n, n') :: M → V.containsNode a = true := by
      intro a b hab
      simp only [List.mem_cons, Prod.mk.injEq] at hab
      rcases hab with ⟨rfl, -⟩ | hab
      · exact hcn
      · exact hMn a b hab
    have step := insertLinks_ok L R ok off (o := o) (M := (n, n') :: M) (n := n) (new := n') (by simp) hM1
      (r := (todo V (n :: M.map (·.1)) ns).length) (V.allLinks n) T (todo V (n :: M.map (·.1)) ns) s'
      (by
        rintro ⟨e, f⟩ hl
        have := ((allLinks_ok ok n).2 e f).1 hl
        exact ⟨this.1, this.2.1⟩)
      (by rw [← hT]; rfl) rfl h2
      (by
        have : ∀ a b : Nat, a = b → cap s' a → cap s' b := fun a b h => h ▸ id
        refine this _ _ ?_ h3
        rw [todo, List.length_append]; rfl) G1
    have hcall : insertNodes H V M (n :: ns) s = match insertLinks H V ((n, n') :: M) n' (V.allLinks n) s' with
        | none => none
        | some (.error e, s) => some (.error e, s)
        | some (.ok (), s) => insertNodes H V ((n, n') :: M) ns s := by
      rw [insertNodes, h1]
      rfl
    rw [hcall]
    rcases step with ⟨s1, i1, i2, i3, i4⟩ | ⟨hs, err, s1, i1, i2⟩
    · rw [i1]
      have ih := insertNodes_ok L R ok off hle (o := o) ns ((n, n') :: M)
        (T ++ (here V (n :: M.map (·.1)) n).map (orient V)) s1
        (by
          have : (M.map (·.1) ++ n :: ns).Perm (n :: M.map (·.1) ++ ns) := by simpa using List.perm_middle
          simpa using this.nodup_iff.1 hnd) hM1 (fun x hx => hns x (List.mem_cons_of_mem _ hx))
        (by rw [← hT, todo, List.append_assoc]; rfl) i2 i3 i4
      rcases ih with ⟨M', s2, j1, j2, j0, j3, j4⟩ | ih
      · refine .inl ⟨M', s2, j1, j2, j0, fun x => ?_, j4⟩
        rw [j3]; simp; tauto
      · exact .inr ih
    · rw [i1]
      exact .inr ⟨hs, err, s1, rfl, i2⟩

theorem insertGraph_ok (L : Law H Good obs cap single maxOff) (R : Refuses H Good obs single) (ok : V.Ok) (off : OffsetsOk V)
    (hle : ∀ n d, V.containsNode n = true → V.numPorts n d ≤ maxOff) {s : S} (hg : Good s) (hc : cap s (todo V [] V.nodes).length) :
    (∃ M s', insertGraph H V s = some (.ok M, s') ∧ Good s' ∧ cap s' 0 ∧ Inserted H.toPort V (obs s) (obs s') M) ∨
    (single ∧ ∃ err s', insertGraph H V s = some (.error err, s') ∧ Failed H V Good obs (obs s) err s') := by
  have h := insertNodes_ok L R ok off hle (o := obs s) V.nodes [] [] s (by simpa using ok.nodes_nodup) (by simp)
    (fun n hn => (ok.mem_nodes n).1 hn) (by simp) hg (by simpa using hc)
    ⟨by simp, by simp, by simp, by simp, fun _ _ _ => Iff.rfl, by simp, [], .nil, by simp, by simp, by simp⟩
  rcases h with ⟨M, s', h1, h2, h0, h3, h4⟩ | h
  · refine .inl ⟨M, s', h1, h2, h0, fun n => ?_, _, todo_lists ok, h4⟩
    rw [← ok.mem_nodes]
    have := h3 n
    simp only [List.map_nil, List.not_mem_nil, false_or] at this
    rw [← this, List.mem_map]
    constructor
    · rintro ⟨n', h⟩; exact ⟨_, h, rfl⟩
    · rintro ⟨⟨a, b⟩, h, rfl⟩; exact ⟨b, h⟩
  · exact .inr h

end Verif.Insert
