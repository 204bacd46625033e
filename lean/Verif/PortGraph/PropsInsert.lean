import Verif.PortGraph.InsertModel
import Verif.PortGraph.PropsIter
import Verif.PortGraph.PropsCompact

/-!
# `insert_graph` and the other provided methods: C20, C47
-/

namespace Verif.PG

open Verif (Direction)

theorem collect_spec {S X : Type} {next : S → Option (Option X × S)} (R : S → List X → Prop)
    (hnext : ∀ s l, R s l → ∃ s', next s = some (l.head?, s') ∧ R s' l.tail) (fuel : Nat) {s l} (h : R s l)
    (hf : l.length < fuel) : collect next fuel s = some l := by
  induction fuel generalizing s l with
  | zero => omega
  | succ fuel ih =>
    obtain ⟨s', h1, h2⟩ := hnext s l h
    cases l with
    | nil => simp [collect, h1]
    | cons x l => simp [collect, h1, ih h2 (by simpa using hf)]

theorem nodesList_eq {g : PG} (hI : Inv g) : g.nodesList = some ((List.range g.nodeMeta.length).filter g.containsNode) := by
  apply collect_spec NodesR nodes_next _ (nodesIter_R hI)
  have := List.length_filter_le g.containsNode (List.range g.nodeMeta.length)
  rw [List.length_range] at this
  omega

/-- Each link touching the node once, in one orientation. -/
structure LinkList (g : PG) (n : Nat) (l : List (Nat × Nat)) : Prop where
  nodup : l.Nodup
  sound : ∀ p q, (p, q) ∈ l → g.portNode p = some n ∧ g.portLink? p = some (some q)
  complete : ∀ p q, g.portNode p = some n → g.portLink? p = some (some q) →
    ((p, q) ∈ l ∧ (q, p) ∉ l) ∨ ((p, q) ∉ l ∧ (q, p) ∈ l)

theorem allLinksList_ok {g : PG} (hI : Inv g) (n : Nat) : ∃ l, g.allLinksList n = some l ∧ LinkList g n l := by
  obtain ⟨s, l, h1, h2, h3, h4, h5⟩ := allLinks_ok hI n
  refine ⟨l, ?_, h3, h4, h5⟩
  unfold PG.allLinksList
  rw [h1]
  simp only
  refine collect_spec LinksR ?_ _ h2 ?_
  · intro s l h
    obtain ⟨s', h3, h4⟩ := links_next s l h
    exact ⟨s', by rw [h3], h4⟩
  · rw [← h2]
    have := List.length_filterMap_le (linkPair s.lo s.hi) s.links
    omega

/-! ### The state of the insertion -/

/-- `G` is `A` together with the copies of the nodes of `B` recorded in `rk`; the links at pending
endpoints are not yet copied. -/
structure Ins (A B G : AGraph) (rk : List (Nat × Nat)) (pending : Endpoint → Prop) : Prop where
  keys : ∀ b n n', (b, n) ∈ rk → (b, n') ∈ rk → n = n'
  vals : ∀ b b' n, (b, n) ∈ rk → (b', n) ∈ rk → b = b'
  fresh : ∀ b n, (b, n) ∈ rk → A.counts n = none
  counts : ∀ b n, (b, n) ∈ rk → (B.counts b).isSome ∧ G.counts n = B.counts b
  others : ∀ n, (∀ b, (b, n) ∉ rk) → G.counts n = A.counts n
  linkOther : ∀ e, (∀ b, (b, e.1) ∉ rk) → G.link e = A.link e
  linkCopy : ∀ b n x f, (b, n) ∈ rk → (G.link (n, x) = some f ↔
    ¬ pending (b, x) ∧ ∃ b' n' y, B.link (b, x) = some (b', y) ∧ (b', n') ∈ rk ∧ f = (n', y))

theorem lookup_some {rk : List (Nat × Nat)} {b n : Nat} (hk : ∀ b n n', (b, n) ∈ rk → (b, n') ∈ rk → n = n') :
    rk.lookup b = some n ↔ (b, n) ∈ rk := by
  induction rk with
  | nil => simp
  | cons x rk ih =>
    obtain ⟨b0, n0⟩ := x
    rw [List.lookup_cons]
    by_cases hb : b = b0
    · subst hb
      simp only [beq_self_eq_true, List.mem_cons, Prod.mk.injEq, true_and]
      constructor
      · intro h; cases h; exact .inl rfl
      · intro h
        rcases h with rfl | h
        · rfl
        · rw [hk b n0 n (by simp) (by simp [h])]
    · have : (b == b0) = false := by simp [hb]
      rw [this]
      simp only [List.mem_cons, Prod.mk.injEq, hb, false_and, false_or]
      exact ih fun b n n' h h' => hk b n n' (by simp [h]) (by simp [h'])

theorem lookup_none {rk : List (Nat × Nat)} {b : Nat} (h : rk.lookup b = none) : ∀ n, (b, n) ∉ rk := by
  intro n hn
  rw [List.lookup_eq_none_iff] at h
  have := h _ hn
  simp at this

/-- Adding the copy of a node. -/
theorem Ins.add {A B G : AGraph} {rk : List (Nat × Nat)} (hA : A.WF) (hB : B.WF) (h : Ins A B G rk fun _ => False) {old new i o : Nat}
    (hold : B.counts old = some (i, o)) (hnot : ∀ n, (old, n) ∉ rk) (hnew : G.counts new = none) :
    Ins A B (G.add new i o) ((old, new) :: rk)
      (fun e => e.1 = old ∨ ∃ f, B.link e = some f ∧ f.1 = old) := by
  have hnew' : ∀ b, (b, new) ∉ rk := by
    intro b hb
    obtain ⟨h1, h2⟩ := h.counts b new hb
    rw [← h2, hnew] at h1; simp at h1
  have hAnew : A.counts new = none := by rw [← h.others new hnew']; exact hnew
  constructor
  · intro b n n' h1 h2
    simp only [List.mem_cons, Prod.mk.injEq] at h1 h2
    rcases h1 with ⟨rfl, rfl⟩ | h1 <;> rcases h2 with ⟨h3, rfl⟩ | h2
    · rfl
    · exact absurd h2 (hnot _)
    · subst h3; exact absurd h1 (hnot _)
    · exact h.keys b n n' h1 h2
  · intro b b' n h1 h2
    simp only [List.mem_cons, Prod.mk.injEq] at h1 h2
    rcases h1 with ⟨rfl, rfl⟩ | h1 <;> rcases h2 with ⟨rfl, h3⟩ | h2
    · rfl
    · exact absurd h2 (hnew' _)
    · subst h3; exact absurd h1 (hnew' _)
    · exact h.vals b b' n h1 h2
  · intro b n h1
    simp only [List.mem_cons, Prod.mk.injEq] at h1
    rcases h1 with ⟨rfl, rfl⟩ | h1
    · exact hAnew
    · exact h.fresh b n h1
  · intro b n h1
    simp only [List.mem_cons, Prod.mk.injEq] at h1
    simp only [AGraph.add]
    rcases h1 with ⟨rfl, rfl⟩ | h1
    · rw [if_pos rfl, hold]; exact ⟨rfl, rfl⟩
    · rw [if_neg (by rintro rfl; exact hnew' _ h1)]
      exact h.counts b n h1
  · intro n h1
    simp only [List.mem_cons, Prod.mk.injEq, not_or, not_and] at h1
    simp only [AGraph.add]
    rw [if_neg ((h1 old).1 rfl)]
    exact h.others n fun b => (h1 b).2
  · intro e h1
    simp only [List.mem_cons, Prod.mk.injEq, not_or, not_and] at h1
    exact h.linkOther e fun b => (h1 b).2
  · intro b n x f h1
    simp only [List.mem_cons, Prod.mk.injEq] at h1
    simp only [AGraph.add]
    rcases h1 with ⟨rfl, rfl⟩ | h1
    · rw [h.linkOther (n, x) hnew']
      constructor
      · intro hl
        have := (hA.live hl).1
        rw [hAnew] at this; simp at this
      · rintro ⟨h2, -⟩
        exact absurd (.inl rfl) h2
    · rw [h.linkCopy b n x f h1]
      have hbo : b ≠ old := by rintro rfl; exact hnot _ h1
      constructor
      · rintro ⟨-, b', n', y, h3, h4, h5⟩
        refine ⟨?_, b', n', y, h3, by simp [h4], h5⟩
        rintro (h6 | ⟨f', h6, h7⟩)
        · exact hbo h6
        · rw [h3] at h6; cases h6
          simp only at h7; subst h7
          exact hnot _ h4
      · rintro ⟨h2, b', n', y, h3, h4, h5⟩
        refine ⟨id, b', n', y, h3, ?_, h5⟩
        simp only [List.mem_cons, Prod.mk.injEq] at h4
        rcases h4 with ⟨rfl, rfl⟩ | h4
        · exact absurd (.inr ⟨_, h3, rfl⟩) h2
        · exact h4

/-- Copying one link. -/
theorem Ins.join {A B G : AGraph} {rk : List (Nat × Nat)} {pending : Endpoint → Prop} (hB : B.WF) (h : Ins A B G rk pending)
    {b b' n n' : Nat} {x y : Direction × Nat} (hl : B.link (b, x) = some (b', y)) (hb : (b, n) ∈ rk) (hb' : (b', n') ∈ rk) :
    Ins A B (G.join (n, x) (n', y)) rk (fun e => pending e ∧ e ≠ (b, x) ∧ e ≠ (b', y)) := by
  refine ⟨h.keys, h.vals, h.fresh, h.counts, h.others, ?_, ?_⟩
  · intro e he
    simp only [AGraph.join]
    rw [if_neg (by rintro rfl; exact he _ hb), if_neg (by rintro rfl; exact he _ hb')]
    exact h.linkOther e he
  · intro b1 n1 x1 f h1
    have hl' := hB.sym _ _ hl
    simp only [AGraph.join]
    by_cases e1 : (n1, x1) = (n, x)
    · rw [if_pos e1]
      cases e1
      have := h.vals _ _ _ h1 hb; subst this
      constructor
      · intro hf; cases hf
        exact ⟨fun hc => hc.2.1 rfl, b', n', y, hl, hb', rfl⟩
      · rintro ⟨-, b2, n2, y2, h3, h4, rfl⟩
        rw [hl] at h3; cases h3
        rw [h.keys _ _ _ h4 hb']
    · rw [if_neg e1]
      by_cases e2 : (n1, x1) = (n', y)
      · rw [if_pos e2]
        cases e2
        have := h.vals _ _ _ h1 hb'; subst this
        constructor
        · intro hf; cases hf
          exact ⟨fun hc => hc.2.2 rfl, b, n, x, hl', hb, rfl⟩
        · rintro ⟨-, b2, n2, y2, h3, h4, rfl⟩
          rw [hl'] at h3; cases h3
          rw [h.keys _ _ _ h4 hb]
      · rw [if_neg e2, h.linkCopy b1 n1 x1 f h1]
        have q1 : (b1, x1) ≠ (b, x) := by
          intro hc; cases hc
          exact e1 (by rw [h.keys _ _ _ h1 hb])
        have q2 : (b1, x1) ≠ (b', y) := by
          intro hc; cases hc
          exact e2 (by rw [h.keys _ _ _ h1 hb'])
        simp [q1, q2]

/-- Pending endpoints that have nothing to copy. -/
theorem Ins.relax {A B G : AGraph} {rk : List (Nat × Nat)} {P Q : Endpoint → Prop} (h : Ins A B G rk P)
    (hPQ : ∀ b x b' y n n', (b, n) ∈ rk → (b', n') ∈ rk → B.link (b, x) = some (b', y) → (P (b, x) ↔ Q (b, x))) :
    Ins A B G rk Q := by
  refine ⟨h.keys, h.vals, h.fresh, h.counts, h.others, h.linkOther, ?_⟩
  intro b n x f h1
  rw [h.linkCopy b n x f h1]
  constructor
  · rintro ⟨h2, b', n', y, h3, h4, h5⟩
    exact ⟨by rwa [← hPQ _ _ _ _ _ _ h1 h4 h3], b', n', y, h3, h4, h5⟩
  · rintro ⟨h2, b', n', y, h3, h4, h5⟩
    exact ⟨by rwa [hPQ _ _ _ _ _ _ h1 h4 h3], b', n', y, h3, h4, h5⟩

theorem containsPort_endpoint {g : PG} (hI : Inv g) {p} : g.containsPort p = true ↔ ∃ e, g.endpoint p = some e := by
  rw [containsPort_iff]
  constructor
  · intro h
    obtain ⟨⟨n, d⟩, hx⟩ := Option.isSome_iff_exists.1 h
    obtain ⟨m, -, -, h1⟩ := port_at hI hx
    exact ⟨_, h1.endpoint hI⟩
  · rintro ⟨e, he⟩
    rw [((endpoint_at hI).1 he).port hI]; rfl

theorem lk_none_of_abs {g : PG} (hI : Inv g) {p e} (hp : At g p e) (h : g.abs.link e = none) : g.lk p = none := by
  cases hl : g.lk p with
  | none => rfl
  | some q =>
    obtain ⟨-, n', hq⟩ := lk_at hI (hp.port hI) hl
    obtain ⟨m, -, -, h1⟩ := port_at hI hq
    rw [(abs_link hI).2 ⟨p, q, hp, hl, h1⟩] at h
    cases h

theorem portOffset_of_endpoint {g : PG} {p n d k} (h : g.endpoint p = some (n, d, k)) :
    g.portNode p = some n ∧ g.portOffset p = some (some (d, k)) := by
  unfold PG.endpoint at h
  split at h
  · cases h; exact ⟨by assumption, by assumption⟩
  · cases h

theorem AGraph.has_congr {A B : AGraph} {a b : Nat} {x : Direction × Nat} (h : A.counts a = B.counts b) :
    A.Has (a, x) ↔ B.Has (b, x) := by
  unfold AGraph.Has AGraph.arity
  simp only [h]

theorem AGraph.has_live {A : AGraph} {e} (h : A.Has e) : (A.counts e.1).isSome := by
  unfold AGraph.Has AGraph.arity at h
  cases hx : A.counts e.1 with
  | none => simp [hx] at h
  | some x => rfl

/-- The endpoint is still to be linked after the links `pre` were treated. -/
def Pending (other : PG) (old : Nat) (pre : List (Nat × Nat)) (e : Endpoint) : Prop :=
  (e.1 = old ∨ ∃ f, other.abs.link e = some f ∧ f.1 = old) ∧
    ∀ p q, (p, q) ∈ pre → other.endpoint p ≠ some e ∧ other.endpoint q ≠ some e

theorem insertLinks_ok {g0 other : PG} (hI0 : Inv g0) (hO : Inv other) {old new : Nat} {rk : List (Nat × Nat)}
    (hkey : (old, new) ∈ rk) {full : List (Nat × Nat)} (hfull : LinkList other old full) (ls : List (Nat × Nat)) :
    ∀ {pre g}, full = pre ++ ls → Inv g → Ins g0.abs other.abs g.abs rk (Pending other old pre) →
      (∀ p, g0.containsPort p = true → SamePort g0 g p) →
      ∃ g', PG.insertLinks other rk new g ls = some (.ok (), g') ∧ Inv g' ∧
        Ins g0.abs other.abs g'.abs rk (Pending other old full) ∧
        (∀ p, g0.containsPort p = true → SamePort g0 g' p) ∧ g'.nodeCount = g.nodeCount := by
  induction ls with
  | nil =>
    intro pre g hf hI hIns hS
    rw [List.append_nil] at hf; subst hf
    exact ⟨g, rfl, hI, hIns, hS, rfl⟩
  | cons x ls ih =>
    intro pre g hf hI hIns hS
    obtain ⟨p, q⟩ := x
    have hmem : (p, q) ∈ full := by rw [hf]; simp
    obtain ⟨hpn, hpl⟩ := hfull.sound p q hmem
    have hOwf := abs_wf hO
    -- endpoints of the two ports
    obtain ⟨⟨n1, d1⟩, hp1, hp2⟩ := Option.map_eq_some_iff.1 hpn
    simp only at hp2; subst hp2
    have hlk := hpl
    rw [portLink?_eq hO (by rw [hp1]; rfl)] at hlk
    simp only [Option.some.injEq] at hlk
    obtain ⟨hlk', m, hq1⟩ := lk_at hO hp1 hlk
    obtain ⟨kx, hatp⟩ : ∃ k, At other p (n1, d1, k) := by
      obtain ⟨m', -, -, h1⟩ := port_at hO hp1; exact ⟨_, h1⟩
    obtain ⟨ky, hatq⟩ : ∃ k, At other q (m, d1.reverse, k) := by
      obtain ⟨m', -, -, h1⟩ := port_at hO hq1; exact ⟨_, h1⟩
    have hBl : other.abs.link (n1, d1, kx) = some (m, d1.reverse, ky) := (abs_link hO).2 ⟨p, q, hatp, hlk, hatq⟩
    have hBl' := hOwf.sym _ _ hBl
    have hep := hatp.endpoint hO
    have heq := hatq.endpoint hO
    have hqn : other.portNode q = some m := (portOffset_of_endpoint heq).1
    have hql : other.portLink? q = some (some p) := by rw [portLink?_eq hO (by rw [hq1]; rfl), hlk']
    have hpq : p ≠ q := by
      rintro rfl
      rw [hp1] at hq1
      simp only [Option.some.injEq, Prod.mk.injEq] at hq1
      exact Direction.reverse_ne d1 hq1.2.symm
    -- nothing about these ports in `pre`
    have hnpre : ∀ p' q', (p', q') ∈ pre → p' ≠ p ∧ q' ≠ p ∧ p' ≠ q ∧ q' ≠ q := by
      intro p' q' hpre
      have hmem' : (p', q') ∈ full := by rw [hf]; simp [hpre]
      obtain ⟨a1, a2⟩ := hfull.sound p' q' hmem'
      have hnd := hfull.nodup
      rw [hf, List.nodup_append] at hnd
      have hne : (p', q') ≠ (p, q) := hnd.2.2 _ hpre _ (by simp)
      have hsym' : other.portLink? q' = some (some p') := by
        have a2' := a2
        obtain ⟨⟨n2, d2⟩, b1, b2⟩ := Option.map_eq_some_iff.1 a1
        rw [portLink?_eq hO (by rw [b1]; rfl)] at a2'
        simp only [Option.some.injEq] at a2'
        obtain ⟨c1, n3, c2⟩ := lk_at hO b1 a2'
        rw [portLink?_eq hO (by rw [c2]; rfl), c1]
      have hcomp := hfull.complete p q hpn hpl
      have hqp : (q, p) ∉ full := by
        rcases hcomp with h | h
        · exact h.2
        · exact absurd hmem h.1
      refine ⟨?_, ?_, ?_, ?_⟩
      · rintro rfl
        rw [hpl] at a2; cases a2; exact hne rfl
      · rintro rfl
        rw [hpl] at hsym'; cases hsym'; exact hqp hmem'
      · rintro rfl
        rw [hql] at a2; cases a2; exact hqp hmem'
      · rintro rfl
        rw [hql] at hsym'; cases hsym'; exact hne rfl
    have hend : ∀ p' e, other.endpoint p = some e → other.endpoint p' = some e → p' = p := fun p' e h1 h2 =>
      ((endpoint_at hO).1 h2).unique ((endpoint_at hO).1 h1)
    have hend' : ∀ p' e, other.endpoint q = some e → other.endpoint p' = some e → p' = q := fun p' e h1 h2 =>
      ((endpoint_at hO).1 h2).unique ((endpoint_at hO).1 h1)
    have hpendp : Pending other n1 pre (n1, d1, kx) := by
      refine ⟨.inl rfl, fun p' q' hpre => ⟨fun hc => ?_, fun hc => ?_⟩⟩
      · exact (hnpre p' q' hpre).1 (hend p' _ hep hc)
      · exact (hnpre p' q' hpre).2.1 (hend q' _ hep hc)
    have hpendq : Pending other n1 pre (m, d1.reverse, ky) := by
      refine ⟨.inr ⟨_, hBl', rfl⟩, fun p' q' hpre => ⟨fun hc => ?_, fun hc => ?_⟩⟩
      · exact (hnpre p' q' hpre).2.2.1 (hend' p' _ heq hc)
      · exact (hnpre p' q' hpre).2.2.2 (hend' q' _ heq hc)
    have hpend' : ∀ e, Pending other n1 (pre ++ [(p, q)]) e ↔
        (Pending other n1 pre e ∧ e ≠ (n1, d1, kx) ∧ e ≠ (m, d1.reverse, ky)) := by
      intro e
      unfold Pending
      constructor
      · rintro ⟨h1, h2⟩
        obtain ⟨h3, h4⟩ := h2 p q (by simp)
        rw [hep] at h3; rw [heq] at h4
        refine ⟨⟨h1, fun p' q' h => h2 p' q' (by simp [h])⟩, ?_, ?_⟩
        · rintro rfl; exact h3 rfl
        · rintro rfl; exact h4 rfl
      · rintro ⟨⟨h1, h2⟩, h3, h4⟩
        refine ⟨h1, fun p' q' h => ?_⟩
        simp only [List.mem_append, List.mem_singleton, Prod.mk.injEq] at h
        rcases h with h | ⟨rfl, rfl⟩
        · exact h2 p' q' h
        · rw [hep, heq]
          exact ⟨fun hc => h3 (by cases hc; rfl), fun hc => h4 (by cases hc; rfl)⟩
    have hf' : full = (pre ++ [(p, q)]) ++ ls := by rw [hf]; simp
    unfold PG.insertLinks
    rw [hqn]
    simp only
    cases hlook : rk.lookup m with
    | none =>
      simp only
      refine ih hf' hI (hIns.relax ?_) hS
      intro b x b' y n n' h1 h2 h3
      rw [hpend']
      constructor
      · intro h
        refine ⟨h, ?_, ?_⟩
        · intro hc; rw [hc, hBl] at h3; cases h3
          exact lookup_none hlook _ h2
        · intro hc; cases hc
          exact lookup_none hlook _ h1
      · exact fun h => h.1
    | some new' =>
      simp only
      have hkey' := (lookup_some hIns.keys).1 hlook
      rw [(portOffset_of_endpoint hep).2, (portOffset_of_endpoint heq).2]
      simp only
      -- the copies
      have hHasP : g.abs.Has (new, d1, kx) :=
        (AGraph.has_congr (hIns.counts _ _ hkey).2).2 hatp.hasEnd
      have hHasQ : g.abs.Has (new', d1.reverse, ky) :=
        (AGraph.has_congr (hIns.counts _ _ hkey').2).2 hatq.hasEnd
      obtain ⟨pa, hpa⟩ := abs_has.1 hHasP
      obtain ⟨pb, hpb⟩ := abs_has.1 hHasQ
      have hna : g.abs.link (new, d1, kx) = none := by
        rw [Option.eq_none_iff_forall_ne_some]
        intro f hf
        exact ((hIns.linkCopy _ _ _ _ hkey).1 hf).1 hpendp
      have hnb : g.abs.link (new', d1.reverse, ky) = none := by
        rw [Option.eq_none_iff_forall_ne_some]
        intro f hf
        exact ((hIns.linkCopy _ _ _ _ hkey').1 hf).1 hpendq
      obtain ⟨g1, l1, l2, l3, l4, l5, l6, -⟩ := linkPorts_refines hI hpa hpb (Ne.symm (Direction.reverse_ne d1))
        (lk_none_of_abs hI hpa hna) (lk_none_of_abs hI hpb hnb)
      have hlo : g.linkOffsets new (d1, kx) new' (d1.reverse, ky) = some (.ok (pa, pb), g1) := by
        unfold PG.linkOffsets
        rw [at_index.2 hpa, at_index.2 hpb]
        exact l1
      rw [hlo]
      simp only
      obtain ⟨g', r1, r2, r3, r4, r5⟩ := ih hf' l2 (by
        rw [l3]
        have := hIns.join hOwf hBl hkey hkey'
        refine this.relax ?_
        intro b x b' y n n' _ _ _
        rw [hpend']) (by
        intro p0 hp0
        obtain ⟨s1, s2, s3⟩ := hS p0 hp0
        obtain ⟨e0, he0⟩ := (containsPort_endpoint hI0).1 hp0
        have hat0 := (endpoint_at hI).1 (by rw [s2]; exact he0)
        have hlive := AGraph.has_live ((endpoint_at hI0).1 he0).hasEnd
        have n1 : p0 ≠ pa := by
          rintro rfl
          have := hat0.inj hI hpa; rw [this] at hlive
          simp only at hlive
          rw [hIns.fresh _ _ hkey] at hlive; cases hlive
        have n2 : p0 ≠ pb := by
          rintro rfl
          have := hat0.inj hI hpb; rw [this] at hlive
          simp only at hlive
          rw [hIns.fresh _ _ hkey'] at hlive; cases hlive
        have hat1 : At g1 p0 e0 := by
          obtain ⟨a, b, c⟩ := e0
          rw [← at_index, l4, at_index]; exact hat0
        refine ⟨?_, ?_, ?_⟩
        · rw [hp0]
          exact (containsPort_endpoint l2).2 ⟨e0, hat1.endpoint l2⟩
        · rw [he0]; exact hat1.endpoint l2
        · rw [l5, if_neg n2, if_neg n1]; exact s3)
      exact ⟨g', r1, r2, r3, r4, by rw [r5, l6]⟩

theorem insertNodes_ok {maxOff : Nat} (hmax : maxOff ≤ 32767) {g0 other : PG} (hI0 : Inv g0) (hO : Inv other)
    (hoff : ∀ n d, other.numPorts n d ≤ maxOff) (ns : List Nat) :
    ∀ {rk g}, Inv g → Ins g0.abs other.abs g.abs rk (fun _ => False) →
      (∀ p, g0.containsPort p = true → SamePort g0 g p) → ns.Nodup →
      (∀ b, b ∈ ns → other.containsNode b = true ∧ ∀ n, (b, n) ∉ rk) →
      ∃ rk' g', PG.insertNodes maxOff other rk g ns = some (.ok rk', g') ∧ Inv g' ∧
        Ins g0.abs other.abs g'.abs rk' (fun _ => False) ∧
        (∀ p, g0.containsPort p = true → SamePort g0 g' p) ∧ g'.nodeCount = g.nodeCount + ns.length ∧
        ∀ b, (∃ n, (b, n) ∈ rk') ↔ (b ∈ ns ∨ ∃ n, (b, n) ∈ rk) := by
  induction ns with
  | nil =>
    intro rk g hI hIns hS _ _
    exact ⟨rk, g, rfl, hI, hIns, hS, rfl, fun b => by simp⟩
  | cons old ns ih =>
    intro rk g hI hIns hS hnd hns
    obtain ⟨hold, hnot⟩ := hns old (by simp)
    obtain ⟨new, g1, h1, h2, h3, h4, h5, -, h6, -, -⟩ := addNode_refines hI (hoff old .incoming) (hoff old .outgoing)
      (by have := hoff old .incoming; omega) (by have := hoff old .incoming; have := hoff old .outgoing; omega)
    have hcold : other.abs.counts old = some (other.numPorts old .incoming, other.numPorts old .outgoing) := by
      simp only [PG.abs, hold, if_true]
    have hcnew : g.abs.counts new = none := by simp [PG.abs, h3]
    have hadd := hIns.add (abs_wf hI0) (abs_wf hO) hcold hnot hcnew
    rw [← h4] at hadd
    obtain ⟨ls, k1, k2⟩ := allLinksList_ok hO old
    obtain ⟨g2, l1, l2, l3, l4, l5⟩ := insertLinks_ok hI0 hO (old := old) (new := new) (rk := (old, new) :: rk)
      (by simp) k2 ls (pre := []) (g := g1) rfl h2 (hadd.relax (by
        intro b x b' y n n' _ _ _
        simp [Pending])) (by
        intro p hp
        obtain ⟨a1, a2, a3⟩ := hS p hp
        obtain ⟨b1, b2, b3⟩ := h5 p (by rw [a1]; exact hp)
        exact ⟨b1.trans a1, b2.trans a2, b3.trans a3⟩)
    have hdone : Ins g0.abs other.abs g2.abs ((old, new) :: rk) (fun _ => False) := by
      refine l3.relax ?_
      intro b x b' y n n' _ _ hl
      simp only [iff_false]
      rintro ⟨hp1, hp2⟩
      obtain ⟨p, q, hp, hlk, hq⟩ := (abs_link hO).1 hl
      have hlk' := (lk_at hO (hp.port hO) hlk).1
      have hn1 : other.portNode p = some b := by simp [PG.portNode, hp.port hO]
      have hn2 : other.portNode q = some b' := by simp [PG.portNode, hq.port hO]
      have hl1 : other.portLink? p = some (some q) := by
        rw [portLink?_eq hO (by rw [hp.port hO]; rfl), hlk]
      have hl2 : other.portLink? q = some (some p) := by
        rw [portLink?_eq hO (by rw [hq.port hO]; rfl), hlk']
      have hpe := hp.endpoint hO
      rcases hp1 with hb | ⟨f, hf1, hf2⟩
      · simp only at hb; subst hb
        rcases k2.complete p q hn1 hl1 with h | h
        · exact (hp2 _ _ h.1).1 hpe
        · exact (hp2 _ _ h.2).2 hpe
      · rw [hl] at hf1; cases hf1
        simp only at hf2; subst hf2
        rcases k2.complete q p hn2 hl2 with h | h
        · exact (hp2 _ _ h.1).2 hpe
        · exact (hp2 _ _ h.2).1 hpe
    rw [List.nodup_cons] at hnd
    obtain ⟨rk', g', r1, r2, r3, r4, r5, r6⟩ := ih l2 hdone l4 hnd.2 (by
      intro b hb
      refine ⟨(hns b (by simp [hb])).1, ?_⟩
      intro n hn
      simp only [List.mem_cons, Prod.mk.injEq] at hn
      rcases hn with ⟨rfl, -⟩ | hn
      · exact hnd.1 hb
      · exact (hns b (by simp [hb])).2 n hn)
    refine ⟨rk', g', ?_, r2, r3, r4, ?_, ?_⟩
    · unfold PG.insertNodes
      rw [h1]
      simp only
      rw [k1]
      simp only
      rw [l1]
      exact r1
    · rw [r5, l5, h6]; simp only [List.length_cons]; omega
    · intro b
      rw [r6]
      simp only [List.mem_cons, Prod.mk.injEq]
      constructor
      · rintro (h | ⟨n, ⟨rfl, rfl⟩ | h⟩)
        · exact .inl (.inr h)
        · exact .inl (.inl rfl)
        · exact .inr ⟨n, h⟩
      · rintro ((rfl | h) | ⟨n, h⟩)
        · exact .inr ⟨new, .inl ⟨rfl, rfl⟩⟩
        · exact .inl h
        · exact .inr ⟨n, .inr h⟩

theorem linkOffsets_reach {maxOff : Nat} {g g' : PG} {a oa b ob r} (hg : PG.Reach maxOff g)
    (h : g.linkOffsets a oa b ob = some (r, g')) : PG.Reach maxOff g' := by
  unfold PG.linkOffsets at h
  split at h
  · cases h; exact hg
  · split at h
    · cases h; exact hg
    · rename_i p _ _ q _
      exact .step (op := .linkPorts p q) hg trivial (by simp [PG.step, h])

theorem insertLinks_reach {maxOff : Nat} {other : PG} {rk new} (ls : List (Nat × Nat)) :
    ∀ {g g' r}, PG.Reach maxOff g → PG.insertLinks other rk new g ls = some (r, g') → PG.Reach maxOff g' := by
  induction ls with
  | nil => intro g g' r hg h; cases h; exact hg
  | cons x ls ih =>
    intro g g' r hg h
    obtain ⟨p, q⟩ := x
    unfold PG.insertLinks at h
    repeat' split at h
    all_goals first
      | exact ih hg h
      | cases h
      | skip
    · rename_i hl; exact linkOffsets_reach hg hl
    · rename_i hl; exact ih (linkOffsets_reach hg hl) h

theorem insertNodes_reach {maxOff : Nat} {other : PG} (hoff : ∀ n d, other.numPorts n d ≤ maxOff) (ns : List Nat) :
    ∀ {rk g g' r}, PG.Reach maxOff g → PG.insertNodes maxOff other rk g ns = some (r, g') → PG.Reach maxOff g' := by
  induction ns with
  | nil => intro rk g g' r hg h; cases h; exact hg
  | cons old ns ih =>
    intro rk g g' r hg h
    unfold PG.insertNodes at h
    split at h
    · cases h
    · rename_i new g1 hadd
      have hg1 : PG.Reach maxOff g1 := .step (op := .addNode (other.numPorts old .incoming) (other.numPorts old .outgoing)) hg
        ⟨hoff _ _, hoff _ _⟩ (by simp [PG.step, hadd])
      repeat' split at h
      all_goals first
        | cases h
        | skip
      · rename_i hl; exact insertLinks_reach _ hg1 hl
      · rename_i hl; exact ih (insertLinks_reach _ hg1 hl) h

/-! ### C20 -/

/-- The entries of the returned map pair every node of `other` with its own new node. -/
structure CopyMap (g other : PG) (rk : List (Nat × Nat)) : Prop where
  total : ∀ b, (∃ n, (b, n) ∈ rk) ↔ other.containsNode b = true
  functional : ∀ b n n', (b, n) ∈ rk → (b, n') ∈ rk → n = n'
  injective : ∀ b b' n, (b, n) ∈ rk → (b', n) ∈ rk → b = b'
  fresh : ∀ b n, (b, n) ∈ rk → g.containsNode n = false

/-- Inserting a reachable graph succeeds. The map pairs every node of the other graph with a
fresh node. A copy has the counts of its origin, and its links are the links of its origin,
followed through the map. All that was there before is unchanged, and nothing else is added. -/
theorem C20_insert_graph {maxOff : Nat} (hmax : maxOff ≤ 32767) {g other : PG} (hg : PG.Reach maxOff g)
    (ho : PG.Reach maxOff other) (hoff : ∀ n d, other.numPorts n d ≤ maxOff) :
    ∃ rk g', g.insertGraph maxOff other = some (.ok rk, g') ∧ PG.Reach maxOff g' ∧ CopyMap g other rk ∧
      (∀ n, g'.abs.counts n = match g.abs.counts n with
        | some c => some c
        | none => (rk.find? (·.2 == n)).bind fun x => other.abs.counts x.1) ∧
      (∀ n x, g.containsNode n = true → g'.abs.link (n, x) = g.abs.link (n, x)) ∧
      (∀ b n x f, (b, n) ∈ rk → (g'.abs.link (n, x) = some f ↔
        ∃ b' n' y, other.abs.link (b, x) = some (b', y) ∧ (b', n') ∈ rk ∧ f = (n', y))) ∧
      (∀ p, g.containsPort p = true → SamePort g g' p) ∧
      g'.nodeCount = g.nodeCount + other.nodeCount := by
  have hI := hg.inv hmax
  have hO := ho.inv hmax
  have hnl := nodesList_eq hO
  obtain ⟨rk, g', r1, r2, r3, r4, r5, r6⟩ := insertNodes_ok hmax hI hO hoff
    ((List.range other.nodeMeta.length).filter other.containsNode) (rk := []) (g := g) hI
    ⟨by simp, by simp, by simp, by simp, fun _ _ => rfl, fun _ _ => rfl, by simp⟩
    (fun p _ => ⟨rfl, rfl, rfl⟩) (nodup_filter_range _ _) (by
      intro b hb
      simp only [List.mem_filter] at hb
      exact ⟨hb.2, by simp⟩)
  have hcall : g.insertGraph maxOff other = some (.ok rk, g') := by
    unfold PG.insertGraph
    rw [hnl]
    exact r1
  have hfresh : ∀ b n, (b, n) ∈ rk → g.containsNode n = false := by
    intro b n hn
    have := r3.fresh b n hn
    simp only [PG.abs] at this
    split at this
    · cases this
    · rename_i hc; simpa using hc
  refine ⟨rk, g', hcall, insertNodes_reach hoff _ hg r1, ⟨?_, r3.keys, r3.vals, hfresh⟩, ?_, ?_, ?_, r4, ?_⟩
  · intro b
    rw [r6]
    simp only [List.mem_filter, List.mem_range, List.not_mem_nil, exists_false, or_false]
    constructor
    · exact fun h => h.2
    · intro h; exact ⟨PG.node?_lt (containsNode_iff.1 h), h⟩
  · intro n
    by_cases hn : ∃ b, (b, n) ∈ rk
    · obtain ⟨b, hb⟩ := hn
      rw [r3.fresh b n hb, (r3.counts b n hb).2]
      simp only
      have : (rk.find? (·.2 == n)).isSome := by
        rw [List.find?_isSome]; exact ⟨_, hb, by simp⟩
      obtain ⟨⟨b', n'⟩, hx⟩ := Option.isSome_iff_exists.1 this
      have h1 := List.mem_of_find?_eq_some hx
      have h2 := List.find?_some hx
      simp only [beq_iff_eq] at h2; subst h2
      rw [hx, r3.vals _ _ _ hb h1]; rfl
    · have hnot : ∀ b, (b, n) ∉ rk := fun b hb => hn ⟨b, hb⟩
      rw [r3.others n hnot]
      have : rk.find? (·.2 == n) = none := by
        rw [List.find?_eq_none]
        rintro ⟨b, n'⟩ hx
        simp only [beq_iff_eq]
        rintro rfl; exact hnot _ hx
      rw [this]
      cases g.abs.counts n <;> rfl
  · intro n x hn
    refine r3.linkOther (n, x) ?_
    intro b hb
    rw [hfresh b n hb] at hn; cases hn
  · intro b n x f hb
    rw [r3.linkCopy b n x f hb]
    simp
  · rw [r5]
    have := (nodesIter_R hO).2
    simp only [PG.nodesIter] at this
    rw [this]

/-- Inserting a graph whose nodes are linked both ways, with a self link, into one that has
freed slots. -/
example : (exG2.insertGraph 32767 exG).map (fun x => x.2.nodeCount) = some 6 := by decide

/-! ### C47 -/

/-- An output of `a` linked to an input of `b`. -/
def Connects (g : PG) (a b p q : Nat) : Prop :=
  g.portNode p = some a ∧ g.portDirection p = some .outgoing ∧ g.portNode q = some b ∧
    g.portDirection q = some .incoming ∧ g.portLink? p = some (some q)

/-- `get_connection` gives the connection at the lowest output port, and none if there is none. -/
theorem C47_get_connection {maxOff : Nat} (hmax : maxOff ≤ 32767) {g : PG} (hg : PG.Reach maxOff g) (a b : Nat) :
    ∃ r, g.getConnection a b = some r ∧
      (∀ p q, r = some (p, q) → Connects g a b p q ∧ ∀ p' q', Connects g a b p' q' → p ≤ p') ∧
      (r = none → ∀ p q, ¬ Connects g a b p q) := by
  obtain ⟨s, l, h1, h2, h3, h4⟩ := C19_get_connections hmax hg a b
  have h5 := h2 1
  simp only [runNext] at h5
  refine ⟨l.head?, ?_, ?_, ?_⟩
  · unfold PG.getConnection
    rw [h1]
    simp only
    have : (g.connNext b (s.links.length + 1) s).1 = l[0]? := by
      simpa [runNext] using h5
    rw [this, List.head?_eq_getElem?]
  · intro p q hr
    have hmem : (p, q) ∈ l := List.mem_of_mem_head? hr
    refine ⟨(h4 p q).1 hmem, ?_⟩
    intro p' q' hc
    have hc' := (h4 p' q').2 hc
    have hs : l.Pairwise (fun x y => x.1 ≤ y.1) := by
      rw [h3]
      apply List.Pairwise.filter
      unfold linkedPairs
      rw [List.pairwise_filterMap]
      have : (g.ports a .outgoing).Pairwise (· < ·) := by
        unfold PG.ports NodeMeta.ports
        split
        · exact List.Pairwise.nil
        · exact List.pairwise_lt_range'
      refine this.imp ?_
      intro x y hxy b hb b' hb'
      grind
    cases l with
    | nil => simp at hmem
    | cons x l =>
      simp only [List.head?_cons, Option.some.injEq] at hr
      subst hr
      rw [List.pairwise_cons] at hs
      rcases List.mem_cons.1 hc' with h | h
      · cases h; exact Nat.le_refl _
      · exact hs.1 _ h
  · intro hr p q hc
    have := (h4 p q).2 hc
    rw [List.head?_eq_none_iff] at hr
    rw [hr] at this; simp at this

example := C47_get_connection (by decide) exG_reach 1 0

theorem C47_connected {maxOff : Nat} (hmax : maxOff ≤ 32767) {g : PG} (hg : PG.Reach maxOff g) (a b : Nat) :
    ∃ r, g.connected a b = some r ∧ (r = true ↔ ∃ p q, Connects g a b p q) := by
  obtain ⟨r, h1, h2, h3⟩ := C47_get_connection hmax hg a b
  refine ⟨r.isSome, by simp [PG.connected, h1], ?_⟩
  cases r with
  | none => simpa using h3 rfl
  | some x => simp; exact ⟨x.1, x.2, (h2 _ _ rfl).1⟩

example := C47_connected (by decide) exG_reach 0 3

/-- `link_offsets` with a missing offset reports it and changes nothing. -/
theorem C47_link_offsets_unknown {g : PG} {a b : Nat} {oa ob : Direction × Nat}
    (h : g.numPorts a oa.1 ≤ oa.2 ∨ g.numPorts b ob.1 ≤ ob.2) :
    g.linkOffsets a oa b ob = some (.error (if g.numPorts a oa.1 ≤ oa.2 then .unknownOffset a oa.1 oa.2
      else .unknownOffset b ob.1 ob.2), g) := by
  have hidx : ∀ n d k, g.numPorts n d ≤ k → g.portIndex n d k = none := by
    intro n d k hk
    unfold PG.numPorts at hk
    unfold PG.portIndex
    cases hn : g.node? n with
    | none => rfl
    | some m =>
      rw [hn] at hk
      simp only at hk ⊢
      unfold NodeMeta.ports
      rw [List.getElem?_eq_none_iff, List.length_range']; exact hk
  have hidx' : ∀ n d k, ¬ g.numPorts n d ≤ k → ∃ p, g.portIndex n d k = some p := by
    intro n d k hk
    unfold PG.numPorts at hk
    unfold PG.portIndex
    cases hn : g.node? n with
    | none => rw [hn] at hk; simp at hk
    | some m =>
      rw [hn] at hk
      simp only at hk ⊢
      unfold NodeMeta.ports
      exact ⟨_, List.getElem?_eq_getElem (by rw [List.length_range']; omega)⟩
  unfold PG.linkOffsets
  by_cases ha : g.numPorts a oa.1 ≤ oa.2
  · rw [hidx _ _ _ ha, if_pos ha]
  · obtain ⟨p, hp⟩ := hidx' _ _ _ ha
    rw [hp, if_neg ha]
    simp only
    rw [hidx _ _ _ (h.resolve_left ha)]

example := C47_link_offsets_unknown (g := exG) (a := 1) (b := 0) (oa := (.outgoing, 0)) (ob := (.incoming, 2)) (.inr (by decide))

/-- `link_nodes` on existing unlinked offsets joins exactly these two endpoints, and returns
their ports. -/
theorem C47_link_nodes {maxOff : Nat} (hmax : maxOff ≤ 32767) {g : PG} (hg : PG.Reach maxOff g) {a b i j p q : Nat}
    (hp : g.portIndex a .outgoing i = some p) (hq : g.portIndex b .incoming j = some q)
    (lp : g.portLink? p = some none) (lq : g.portLink? q = some none) :
    ∃ g', g.linkNodes a i b j = some (.ok (p, q), g') ∧ PG.Reach maxOff g' ∧
      g'.abs = g.abs.join (a, .outgoing, i) (b, .incoming, j) ∧
      (∀ n d k, g'.portIndex n d k = g.portIndex n d k) ∧ g'.linkCount = g.linkCount + 1 := by
  have hI := hg.inv hmax
  have hap := at_index.1 hp
  have haq := at_index.1 hq
  rw [portLink?_eq hI (by rw [hap.port hI]; rfl)] at lp
  rw [portLink?_eq hI (by rw [haq.port hI]; rfl)] at lq
  obtain ⟨g1, l1, l2, l3, l4, l5, l6, l7, l8⟩ := linkPorts_refines hI hap haq (by simp) (by simpa using lp)
    (by simpa using lq)
  have hc : g.linkNodes a i b j = some (.ok (p, q), g1) := by
    unfold PG.linkNodes PG.linkOffsets
    simp only [hp, hq, l1]
  exact ⟨g1, hc, linkOffsets_reach hg hc, l3, l4, l8⟩

example : exG.portIndex 1 .outgoing 0 = some 6 ∧ exG.getConnection 1 0 = some (some (6, 0)) ∧
    exG.connected 0 3 = some false ∧ exG.portIndex 3 .outgoing 0 = some 9 ∧ exG.portIndex 1 .incoming 1 = some 5 ∧
    exG.portLink? 9 = some none ∧ exG.portLink? 5 = some none := by decide

end Verif.PG

#print axioms Verif.PG.C20_insert_graph
#print axioms Verif.PG.C47_get_connection
#print axioms Verif.PG.C47_connected
#print axioms Verif.PG.C47_link_offsets_unknown
#print axioms Verif.PG.C47_link_nodes
