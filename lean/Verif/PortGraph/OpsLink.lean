import Verif.PortGraph.Replace

/-! Effects of linking, unlinking and dropping ports, and preservation of `Inv`. -/

namespace Verif.PG

open Verif (Direction)

/-! ## Reading updated lists -/

theorem join_set (l : List (Option Nat)) (i : Nat) (x : Option Nat) (j : Nat) (hi : i < l.length) :
    ((l.set i x)[j]?).join = if j = i then x else (l[j]?).join := by
  rw [List.getElem?_set]
  by_cases e : i = j
  · subst e; simp [hi]
  · rw [if_neg e, if_neg (fun h => e h.symm)]

theorem PG.lk_lt {g : PG} {p} (h : (g.lk p).isSome) : p < g.portLink.length := by
  unfold PG.lk at h
  rcases Nat.lt_or_ge p g.portLink.length with h1 | h1
  · exact h1
  · rw [List.getElem?_eq_none h1] at h; simp at h

theorem PG.getElem?_portLink {g : PG} {p} (h : p < g.portLink.length) :
    g.portLink[p]? = some (g.lk p) := by
  simp [PG.lk, h]

theorem PG.port?_lt {g : PG} {p} (h : (g.port? p).isSome) : p < g.portMeta.length := by
  unfold PG.port? at h
  rcases Nat.lt_or_ge p g.portMeta.length with h1 | h1
  · exact h1
  · rw [List.getElem?_eq_none h1] at h; simp at h

theorem PG.node?_lt {g : PG} {n} (h : (g.node? n).isSome) : n < g.nodeMeta.length := by
  unfold PG.node? at h
  rcases Nat.lt_or_ge n g.nodeMeta.length with h1 | h1
  · exact h1
  · rw [List.getElem?_eq_none h1] at h; simp at h

theorem PG.node?_eq {g : PG} {n m} : g.node? n = some m ↔ g.nodeMeta[n]? = some (.node m) := by
  unfold PG.node?
  constructor
  · intro h; split at h
    · simp_all
    · simp at h
  · intro h; simp [h]

theorem PG.port?_eq {g : PG} {p n d} : g.port? p = some (n, d) ↔ g.portMeta[p]? = some (.port n d) := by
  unfold PG.port?
  constructor
  · intro h; split at h
    · simp_all
    · simp at h
  · intro h; simp [h]

/-! ## Counting links -/

theorem linkedDir_iff {pt lk d p} :
    linkedDir pt lk d p = true ↔ ∃ n, pt p = some (n, d) ∧ (lk p).isSome := by
  unfold linkedDir
  cases e : pt p with
  | none => simp
  | some x => obtain ⟨n, d'⟩ := x; simp

theorem linkedDir_congr {pt pt' : Nat → Option (Nat × Direction)} {lk lk' : Nat → Option Nat} {d p}
    (h1 : (pt' p).map (·.2) = (pt p).map (·.2)) (h2 : (pt p).isSome → (lk' p).isSome = (lk p).isSome) :
    linkedDir pt' lk' d p = linkedDir pt lk d p := by
  unfold linkedDir
  cases e : pt p with
  | none => cases e' : pt' p <;> simp_all
  | some x =>
    obtain ⟨n, d'⟩ := x
    cases e' : pt' p with
    | none => simp_all
    | some y => obtain ⟨n', d''⟩ := y; simp_all

theorem cnt_link {len : Nat} {pt : Nat → Option (Nat × Direction)} {lk : Nat → Option Nat} {a b na nb da}
    (ha : pt a = some (na, da)) (hb : pt b = some (nb, da.reverse)) (hla : a < len) (hlb : b < len)
    (la : lk a = none) (lb : lk b = none) (d : Direction) :
    cnt len (linkedDir pt (upd (upd lk a (some b)) b (some a)) d) = cnt len (linkedDir pt lk d) + 1 := by
  have hab : a ≠ b := by
    rintro rfl; rw [ha] at hb; cases da <;> simp [Direction.reverse] at hb
  by_cases e : d = da
  · subst e
    apply cnt_insert hla
    · simp [linkedDir, ha, la]
    · simp [linkedDir, ha, upd, hab]
    · intro j _ hj
      by_cases e2 : j = b
      · subst e2; simp [linkedDir, hb, Direction.reverse_ne]
      · simp [linkedDir, upd, e2, hj]
  · have e' : d = da.reverse := by cases d <;> cases da <;> simp_all [Direction.reverse]
    subst e'
    apply cnt_insert hlb
    · simp [linkedDir, hb, lb]
    · simp [linkedDir, hb, upd]
    · intro j _ hj
      by_cases e2 : j = a
      · subst e2; simp [linkedDir, ha, (Direction.reverse_ne da).symm]
      · simp [linkedDir, upd, e2, hj]

/-! ## `linkPorts` -/

theorem linkPorts_ok {g : PG} (h : Inv g) {a b na nb da db} (ha : g.port? a = some (na, da))
    (hb : g.port? b = some (nb, db)) (hd : da ≠ db) (la : g.lk a = none) (lb : g.lk b = none) :
    ∃ g', g.linkPorts a b = some (.ok (a, b), g') ∧ Inv g' ∧ g'.node? = g.node? ∧
      g'.port? = g.port? ∧ g'.lk = upd (upd g.lk a (some b)) b (some a) ∧
      g'.nodeCount = g.nodeCount ∧ g'.portCount = g.portCount ∧ g'.linkCount = g.linkCount + 1 := by
  have hdb : db = da.reverse := by cases da <;> cases db <;> simp_all [Direction.reverse]
  subst hdb
  have hla := PG.port?_lt (g := g) (p := a) (by simp [ha])
  have hlb := PG.port?_lt (g := g) (p := b) (by simp [hb])
  have hlen := h.len
  have hlk : PG.lk { g with portLink := (g.portLink.set a (some b)).set b (some a), linkCount := g.linkCount + 1 }
      = upd (upd g.lk a (some b)) b (some a) := by
    funext j
    simp only [PG.lk, upd]
    rw [join_set _ _ _ _ (by simp; omega), join_set _ _ _ _ (by omega)]
  refine ⟨{ g with portLink := (g.portLink.set a (some b)).set b (some a), linkCount := g.linkCount + 1 },
    ?_, ?_, rfl, rfl, hlk, rfl, rfl, rfl⟩
  · simp only [PG.linkPorts, ha, hb, hd, if_false]
    rw [PG.getElem?_portLink (by omega), la]
    simp only
    rw [PG.getElem?_portLink (by omega), lb]
  · obtain ⟨own, fs, hp, hfull⟩ := h.slots
    refine ⟨by simpa using hlen, h.nodes, ⟨own, fs, ?_⟩, h.portCount, ?_, ?_⟩
    · rw [hlk]; exact ⟨hp.link ha hb la lb, hfull⟩
    · rw [hlk]
      show g.linkCount + 1 = cnt g.portMeta.length (linkedDir g.port? _ _)
      rw [cnt_link ha hb hla hlb la lb, h.outCount]
    · rw [hlk]
      show g.linkCount + 1 = cnt g.portMeta.length (linkedDir g.port? _ _)
      rw [cnt_link ha hb hla hlb la lb, h.inCount]

/-! ## `unlinkPort` -/

theorem cut_single {pt : Nat → Option (Nat × Direction)} {lk : Nat → Option Nat} {p q}
    (hpq : lk p = some q) (hqp : lk q = some p) (hq : (pt q).isSome)
    (hsym : ∀ a b, (pt a).isSome → lk a = some b → lk b = some a) :
    cut pt lk (fun i => decide (i = p)) = upd (upd lk p none) q none := by
  funext j
  simp only [cut, upd]
  grind

theorem cut_none {pt : Nat → Option (Nat × Direction)} {lk : Nat → Option Nat} {p}
    (hp : lk p = none) (hsym : ∀ a b, (pt a).isSome → lk a = some b → lk b = some a) :
    cut pt lk (fun i => decide (i = p)) = lk := by
  funext j
  simp only [cut]
  grind

theorem PInv.sym {len nd pt lk heads own fs} (h : PInv len nd pt lk heads own fs) :
    ∀ a b, (pt a).isSome → lk a = some b → lk b = some a := by
  intro a b ha hb
  cases e : pt a with
  | none => simp [e] at ha
  | some x => obtain ⟨n, d⟩ := x; exact (h.links a n d b e hb).1

theorem PInv.slab_of_port {len nd pt lk heads own fs} (h : PInv len nd pt lk heads own fs) {p}
    (hp : (pt p).isSome) : ∀ s f, f ∈ fs s → decide (f = p) = false := by
  intro s f hf
  have := h.slab_notPort hf
  simp; rintro rfl; simp [this] at hp

/-- Effect of `unlink_port` on a live port. -/
theorem unlinkPort_ok {g : PG} (h : Inv g) {p} (hp : (g.port? p).isSome) :
    ∃ g', g.unlinkPort p = some (g.lk p, g') ∧ Inv g' ∧ g'.nodeMeta = g.nodeMeta ∧
      g'.portMeta = g.portMeta ∧ g'.lk = cut g.port? g.lk (fun i => decide (i = p)) ∧
      g'.nodeFree = g.nodeFree ∧ g'.portFree = g.portFree ∧
      g'.nodeCount = g.nodeCount ∧ g'.portCount = g.portCount ∧
      g'.linkCount + (if (g.lk p).isSome then 1 else 0) = g.linkCount := by
  obtain ⟨own, fs, hI, hfull⟩ := h.slots
  have hlt := PG.port?_lt hp
  have hlen := h.len
  obtain ⟨⟨n, d⟩, hx⟩ := Option.isSome_iff_exists.1 hp
  cases hl : g.lk p with
  | none =>
    refine ⟨g, ?_, h, rfl, rfl, (cut_none hl hI.sym).symm, rfl, rfl, rfl, rfl, by simp⟩
    simp only [PG.unlinkPort, hx]
    rw [PG.getElem?_portLink (by omega), hl]
  | some q =>
    obtain ⟨hqp, n', hq⟩ := hI.links p n d q hx hl
    have hqlt := PG.port?_lt (g := g) (p := q) (by simp [hq])
    have hpqne : p ≠ q := by
      rintro rfl; rw [hx] at hq; cases d <;> simp [Direction.reverse] at hq
    have hcut := cut_single (pt := g.port?) hl hqp (by simp [hq]) hI.sym
    have hlk : PG.lk { g with portLink := (g.portLink.set p none).set q none, linkCount := g.linkCount - 1 }
        = cut g.port? g.lk (fun i => decide (i = p)) := by
      rw [hcut]
      funext j
      simp only [PG.lk, upd]
      rw [join_set _ _ _ _ (by simp; omega), join_set _ _ _ _ (by omega)]
    have hc : ∀ d', cnt g.portMeta.length (linkedDir g.port? g.lk d') =
        cnt g.portMeta.length (linkedDir g.port? (cut g.port? g.lk (fun i => decide (i = p))) d') + 1 := by
      intro d'
      rw [← cnt_link (pt := g.port?) (lk := cut g.port? g.lk (fun i => decide (i = p)))
        (a := p) (b := q) hx hq hlt hqlt (by simp [hcut, upd]) (by simp [hcut, upd]) d']
      congr 2
      rw [hcut]
      funext j
      simp only [upd]
      grind
    have hpos : 0 < g.linkCount := by
      rw [h.outCount, hc]; omega
    refine ⟨{ g with portLink := (g.portLink.set p none).set q none, linkCount := g.linkCount - 1 },
      ?_, ?_, rfl, rfl, hlk, rfl, rfl, rfl, rfl, by simp; omega⟩
    · simp only [PG.unlinkPort, hx]
      rw [PG.getElem?_portLink (by omega), hl]
      simp only
      rw [if_pos ⟨by omega, hpos⟩]
    · refine ⟨by simpa using hlen, h.nodes, ⟨own, fs, ?_⟩, h.portCount, ?_, ?_⟩
      · rw [hlk]
        exact ⟨hI.cut _ (hI.slab_of_port hp), hfull⟩
      · rw [hlk]
        show g.linkCount - 1 = cnt g.portMeta.length (linkedDir g.port? _ _)
        have := hc .outgoing; have := h.outCount; omega
      · rw [hlk]
        show g.linkCount - 1 = cnt g.portMeta.length (linkedDir g.port? _ _)
        have := hc .incoming; have := h.inCount; omega

/-! ## `dropPorts` -/

theorem cut_cut {pt : Nat → Option (Nat × Direction)} {lk : Nat → Option Nat} (R S : Nat → Bool) :
    cut pt (cut pt lk R) S = cut pt lk (fun i => R i || S i) := by
  funext j
  simp only [cut]
  cases R j <;> cases S j <;> cases hl : lk j <;> simp <;> rename_i q <;>
    cases (pt j).isSome <;> cases hR : R q <;> cases hS : S q <;> simp [hR, hS]

theorem cut_false {pt : Nat → Option (Nat × Direction)} {lk : Nat → Option Nat} :
    cut pt lk (fun _ => false) = lk := by
  funext j
  simp only [cut]
  cases lk j <;> simp

theorem dropPorts_ok {g : PG} (h : Inv g) (ps : List Nat) (hps : ∀ p ∈ ps, (g.port? p).isSome) :
    ∃ g' tr, g.dropPorts ps = some (g', tr) ∧ Inv g' ∧ g'.nodeMeta = g.nodeMeta ∧
      g'.portMeta = g.portMeta ∧ g'.lk = cut g.port? g.lk (fun i => decide (i ∈ ps)) ∧
      g'.nodeFree = g.nodeFree ∧ g'.portFree = g.portFree ∧
      g'.nodeCount = g.nodeCount ∧ g'.portCount = g.portCount ∧
      ∀ i : Nat, tr[i]? = (ps[i]?).map fun p =>
        (p, .removed (cut g.port? g.lk (fun j => decide (j ∈ ps.take i)) p)) := by
  induction ps generalizing g with
  | nil =>
    refine ⟨g, [], rfl, h, rfl, rfl, ?_, rfl, rfl, rfl, rfl, by simp⟩
    rw [← cut_false (pt := g.port?) (lk := g.lk)]
    simp [cut_cut]
  | cons p ps ih =>
    obtain ⟨g1, h1, hI1, hn1, hp1, hl1, hnf1, hpf1, hnc1, hpc1, -⟩ := unlinkPort_ok h (hps p (by simp))
    have hport : g1.port? = g.port? := by funext j; simp [PG.port?, hp1]
    obtain ⟨g2, tr, h2, hI2, hn2, hp2, hl2, hnf2, hpf2, hnc2, hpc2, htr⟩ := ih (g := g1) hI1
      (fun x hx => by rw [hport]; exact hps x (by simp [hx]))
    refine ⟨g2, (p, .removed (g.lk p)) :: tr, ?_, hI2, by rw [hn2, hn1], by rw [hp2, hp1], ?_,
      by rw [hnf2, hnf1], by rw [hpf2, hpf1], by rw [hnc2, hnc1], by rw [hpc2, hpc1], ?_⟩
    · simp only [PG.dropPorts, h1, h2]
    · rw [hl2, hl1, hport, cut_cut]
      congr 1
      funext j
      simp
    · intro i
      cases i with
      | zero => simp [cut_false]
      | succ i =>
        simp only [List.getElem?_cons_succ, htr i, hl1, hport, cut_cut, List.take_succ_cons]
        congr 1
        funext x
        congr 3
        funext j
        simp

end Verif.PG
