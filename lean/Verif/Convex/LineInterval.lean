import Verif.Convex.LineFind
import Mathlib.Data.List.Perm.Subperm

/-!
# Intervals on lines
-/

namespace Verif.Convex

open Verif (Direction)
open Verif.Algo

namespace Line

/-- The updated entry. -/
def upd (x : Entry) (v : Nat) : Entry :=
  ⟨x.line, if v < x.min then v else x.min, if x.max < v then v else x.max, x.count + 1⟩

theorem keys_mapAdd (m : List Entry) (l v : Nat) :
    (mapAdd m l v).map (·.line) = if l ∈ m.map (·.line) then m.map (·.line) else m.map (·.line) ++ [l] := by
  induction m with
  | nil => simp [mapAdd]
  | cons x m ih =>
    simp only [mapAdd]
    split
    · rename_i h; simp [h]
    · rename_i h
      simp only [List.map_cons, ih, List.mem_cons, Ne.symm h, false_or]
      split <;> simp

theorem mem_mapAdd {m : List Entry} (hm : (m.map (·.line)).Nodup) {l v : Nat} {y : Entry} :
    y ∈ mapAdd m l v → (y ∈ m ∧ y.line ≠ l) ∨ (∃ x ∈ m, x.line = l ∧ y = upd x v) ∨
      ((∀ x ∈ m, x.line ≠ l) ∧ y = ⟨l, v, v, 1⟩) := by
  induction m with
  | nil => simp [mapAdd]
  | cons x m ih =>
    simp only [List.map_cons, List.nodup_cons] at hm
    simp only [mapAdd]
    split
    · rename_i h
      intro hy
      rcases List.mem_cons.1 hy with hy | hy
      · refine .inr (.inl ⟨x, by simp, h, ?_⟩)
        rw [hy, upd, h]
      · refine .inl ⟨by simp [hy], ?_⟩
        intro e
        exact hm.1 (List.mem_map.2 ⟨y, hy, by rw [e, h]⟩)
    · rename_i h
      intro hy
      rcases List.mem_cons.1 hy with hy | hy
      · exact .inl ⟨by simp [hy], hy ▸ h⟩
      · rcases ih hm.2 hy with ⟨h1, h2⟩ | ⟨z, h1, h2⟩ | ⟨h1, h2⟩
        · exact .inl ⟨by simp [h1], h2⟩
        · exact .inr (.inl ⟨z, by simp [h1], h2⟩)
        · refine .inr (.inr ⟨?_, h2⟩)
          intro z hz
          rcases List.mem_cons.1 hz with hz | hz
          · exact hz ▸ h
          · exact h1 z hz

/-- The nodes paired with line `l`. -/
def vals (ps : List (Nat × Nat)) (l : Nat) : List Nat := (ps.filter fun x => x.1 == l).map (·.2)

theorem vals_append (ps qs : List (Nat × Nat)) (l : Nat) : vals (ps ++ qs) l = vals ps l ++ vals qs l := by
  simp [vals]

/-- The entry describes the nodes paired with its line. -/
structure EOK (p : Nat → Nat) (ns : List Nat) (x : Entry) : Prop where
  count : x.count = ns.length
  min_mem : ∃ n ∈ ns, p n = x.min
  max_mem : ∃ n ∈ ns, p n = x.max
  bounds : ∀ n ∈ ns, x.min ≤ p n ∧ p n ≤ x.max

theorem EOK.upd {p : Nat → Nat} {ns : List Nat} {x : Entry} (h : EOK p ns x) (n : Nat) :
    EOK p (ns ++ [n]) (upd x (p n)) where
  count := by simp [Line.upd, h.count]
  min_mem := by
    obtain ⟨a, ha, e⟩ := h.min_mem
    simp only [Line.upd]
    split
    · exact ⟨n, by simp, rfl⟩
    · exact ⟨a, by simp [ha], e⟩
  max_mem := by
    obtain ⟨a, ha, e⟩ := h.max_mem
    simp only [Line.upd]
    split
    · exact ⟨n, by simp, rfl⟩
    · exact ⟨a, by simp [ha], e⟩
  bounds := by
    intro m hm
    simp only [Line.upd]
    rcases List.mem_append.1 hm with hm | hm
    · have := h.bounds m hm
      constructor <;> split <;> omega
    · simp at hm; subst hm
      constructor <;> split <;> omega

structure MOK (p : Nat → Nat) (ps : List (Nat × Nat)) (m : List Entry) : Prop where
  keys : (m.map (·.line)).Nodup
  entry : ∀ x ∈ m, EOK p (vals ps x.line) x
  all : ∀ q ∈ ps, ∃ x ∈ m, x.line = q.1

theorem mem_keys {m : List Entry} {l : Nat} : (∃ x ∈ m, x.line = l) ↔ l ∈ m.map (·.line) := by
  simp

theorem MOK.add {p : Nat → Nat} {ps : List (Nat × Nat)} {m : List Entry} (h : MOK p ps m) (l n : Nat) :
    MOK p (ps ++ [(l, n)]) (mapAdd m l (p n)) where
  keys := by
    rw [keys_mapAdd]
    split
    · exact h.keys
    · rename_i hl
      rw [List.nodup_append]
      refine ⟨h.keys, by simp, ?_⟩
      intro a ha b hb
      simp at hb; subst hb
      rintro rfl; exact hl ha
  entry := by
    intro y hy
    rw [vals_append]
    rcases mem_mapAdd h.keys hy with ⟨h1, h2⟩ | ⟨z, h1, h2, rfl⟩ | ⟨h1, rfl⟩
    · have : vals [(l, n)] y.line = [] := by simp [vals, Ne.symm h2]
      rw [this, List.append_nil]
      exact h.entry y h1
    · have := (h.entry z h1).upd n
      have e : (Line.upd z (p n)).line = z.line := rfl
      rw [e]
      have : vals [(l, n)] z.line = [n] := by simp [vals, h2]
      rw [this]
      assumption
    · have e1 : vals ps l = [] := by
        simp only [vals, List.map_eq_nil_iff, List.filter_eq_nil_iff]
        intro q hq hc
        obtain ⟨x, hx, e⟩ := h.all q hq
        simp at hc
        exact h1 x hx (by omega)
      have e2 : vals [(l, n)] l = [n] := by simp [vals]
      rw [e1, e2]
      exact ⟨by simp, ⟨n, by simp⟩, ⟨n, by simp⟩, by simp⟩
  all := by
    intro q hq
    rw [mem_keys, keys_mapAdd]
    rcases List.mem_append.1 hq with hq | hq
    · have := mem_keys.1 (h.all q hq)
      split
      · exact this
      · exact List.mem_append_left _ this
    · simp at hq; subst hq
      split
      · assumption
      · simp

theorem collect_ok (c : Line) (S : List Nat) :
    MOK c.getPos (S.flatMap fun n => (c.getLines n).map fun l => (l, n)) (c.collectEntries S) := by
  unfold collectEntries
  have inner : ∀ (n : Nat) (ls : List Nat) (ps : List (Nat × Nat)) (m : List Entry), MOK c.getPos ps m →
      MOK c.getPos (ps ++ ls.map fun l => (l, n)) (ls.foldl (fun m l => mapAdd m l (c.getPos n)) m) := by
    intro n ls
    induction ls with
    | nil => intro ps m h; simpa using h
    | cons l ls ih =>
      intro ps m h
      have := ih _ _ (h.add l n)
      simpa using this
  have outer : ∀ (S : List Nat) (ps : List (Nat × Nat)) (m : List Entry), MOK c.getPos ps m →
      MOK c.getPos (ps ++ S.flatMap fun n => (c.getLines n).map fun l => (l, n))
        (S.foldl (fun m n => (c.getLines n).foldl (fun m l => mapAdd m l (c.getPos n)) m) m) := by
    intro S
    induction S with
    | nil => intro ps m h; simpa using h
    | cons n S ih =>
      intro ps m h
      have := ih _ _ (inner n (c.getLines n) ps m h)
      simpa using this
  simpa using outer S [] [] ⟨by simp, by simp, by simp⟩

theorem vals_nodes {c : Line} (hnd : ∀ n, (c.getLines n).Nodup) (S : List Nat) (l : Nat) :
    vals (S.flatMap fun n => (c.getLines n).map fun l => (l, n)) l = S.filter fun n => (c.getLines n).contains l := by
  induction S with
  | nil => simp [vals]
  | cons n S ih =>
    simp only [List.flatMap_cons, vals_append, ih, List.filter_cons]
    have key : ∀ ls : List Nat, ls.Nodup →
        vals (ls.map fun l => (l, n)) l = if ls.contains l then [n] else [] := by
      intro ls
      induction ls with
      | nil => simp [vals]
      | cons k ls ih =>
        intro h
        rw [List.nodup_cons] at h
        have ih := ih h.2
        have e : vals ((k :: ls).map fun l => (l, n)) l = vals [(k, n)] l ++ vals (ls.map fun l => (l, n)) l := by
          rw [← vals_append]; rfl
        rw [e, ih]
        by_cases hk : k = l
        · subst hk
          have : ls.contains k = false := by simpa using h.1
          rw [this]
          simp [vals]
        · have e : vals [(k, n)] l = [] := by simp [vals, hk]
          rw [e]
          have : (k :: ls).contains l = ls.contains l := by
            simp [List.contains_cons, Ne.symm hk]
          rw [this, List.nil_append]
    rw [key _ (hnd n)]
    split <;> simp_all

variable {c : Line} {R : Nat → Nat → Prop} {V : Nat → Prop}

/-- Contiguity by counting. -/
theorem contig {line : List Nat} {p : Nat → Nat} (hinc : line.Pairwise fun a b => p a < p b) {S : List Nat}
    {i j a b : Nat} (hi : line[i]? = some a) (hj : line[j]? = some b) (ha : a ∈ S)
    (hb : ∀ n ∈ line, n ∈ S → p a ≤ p n ∧ p n ≤ p b) (hpab : p a ≤ p b) :
    ∃ m, line[i + (line.countP fun n => S.contains n) - 1]? = some m ∧
      (p m = p b ↔ ∀ n ∈ line, p a ≤ p n → p n ≤ p b → n ∈ S) := by
  obtain ⟨hil, ei⟩ := List.getElem?_eq_some_iff.1 hi
  obtain ⟨hjl, ej⟩ := List.getElem?_eq_some_iff.1 hj
  have hij : i ≤ j := by
    by_contra hc
    have := (inc_lt hinc hj hi).1.2 (by omega)
    omega
  -- split the line
  have hsplit : line = line.take i ++ ((line.drop i).take (j - i + 1) ++ line.drop (j + 1)) := by
    have h1 : line.drop i = (line.drop i).take (j - i + 1) ++ (line.drop i).drop (j - i + 1) :=
      (List.take_append_drop _ _).symm
    have h2 : (line.drop i).drop (j - i + 1) = line.drop (j + 1) := by
      rw [List.drop_drop]; congr 1; omega
    rw [h2] at h1
    rw [← h1, List.take_append_drop]
  have idx : ∀ (k n : Nat), line[k]? = some n → n ∈ S → i ≤ k ∧ k ≤ j := by
    intro k n hk hn
    have hm := List.mem_of_getElem? hk
    have hb' := hb n hm hn
    constructor
    · by_contra hc
      have := (inc_lt hinc hk hi).1.2 (by omega); omega
    · by_contra hc
      have := (inc_lt hinc hj hk).1.2 (by omega); omega
  have z1 : (line.take i).countP (fun n => S.contains n) = 0 := by
    rw [List.countP_eq_zero]
    intro n hn hc
    obtain ⟨k, hk, e⟩ := List.mem_iff_getElem.1 hn
    simp only [List.length_take] at hk
    rw [List.getElem_take] at e
    have := idx k n (by rw [List.getElem?_eq_getElem (by omega), e]) (by simpa using hc)
    omega
  have z2 : (line.drop (j + 1)).countP (fun n => S.contains n) = 0 := by
    rw [List.countP_eq_zero]
    intro n hn hc
    obtain ⟨k, hk, e⟩ := List.mem_iff_getElem.1 hn
    simp only [List.length_drop] at hk
    rw [List.getElem_drop] at e
    have := idx (j + 1 + k) n (by rw [List.getElem?_eq_getElem (by omega), e]) (by simpa using hc)
    omega
  have hcount : line.countP (fun n => S.contains n) = ((line.drop i).take (j - i + 1)).countP (fun n => S.contains n) := by
    conv_lhs => rw [hsplit]
    rw [List.countP_append, List.countP_append, z1, z2]; omega
  have hslen : ((line.drop i).take (j - i + 1)).length = j - i + 1 := by
    rw [List.length_take, List.length_drop]; omega
  have hle : line.countP (fun n => S.contains n) ≤ j - i + 1 := by
    rw [hcount]; exact Nat.le_trans List.countP_le_length (Nat.le_of_eq hslen)
  have hpos : 0 < line.countP (fun n => S.contains n) :=
    List.countP_pos_iff.2 ⟨a, List.mem_of_getElem? hi, by simpa using ha⟩
  generalize hcnt : line.countP (fun n => S.contains n) = cnt at *
  have hml : i + cnt - 1 < line.length := by omega
  refine ⟨line[i + cnt - 1], List.getElem?_eq_getElem hml, ?_⟩
  rw [(inc_lt hinc (List.getElem?_eq_getElem hml) hj).2]
  have hfull : i + cnt - 1 = j ↔ ((line.drop i).take (j - i + 1)).countP (fun n => S.contains n) =
      ((line.drop i).take (j - i + 1)).length := by
    rw [hslen, ← hcount]; omega
  rw [hfull, List.countP_eq_length]
  constructor
  · intro h n hn h1 h2
    obtain ⟨k, hk, e⟩ := List.mem_iff_getElem.1 hn
    have hk' : line[k]? = some n := by rw [List.getElem?_eq_getElem hk, e]
    have hik : i ≤ k := by
      by_contra hc
      have := (inc_lt hinc hk' hi).1.2 (by omega); omega
    have hkj : k ≤ j := by
      by_contra hc
      have := (inc_lt hinc hj hk').1.2 (by omega); omega
    have hmem : n ∈ (line.drop i).take (j - i + 1) := by
      rw [List.mem_iff_getElem?]
      refine ⟨k - i, ?_⟩
      rw [List.getElem?_take_of_lt (by omega), List.getElem?_drop]
      rw [show i + (k - i) = k by omega, hk']
    simpa using h n hmem
  · intro h n hn
    obtain ⟨k, hk⟩ := List.mem_iff_getElem?.1 hn
    have hkl : k < j - i + 1 := by
      have := (List.getElem?_eq_some_iff.1 hk).1
      omega
    rw [List.getElem?_take_of_lt hkl, List.getElem?_drop] at hk
    have h1 := inc_lt hinc hi hk
    have h1' := inc_lt hinc hk hi
    have h2 := inc_lt hinc hj hk
    have := h n (List.mem_of_getElem? hk) (by
      by_contra hc
      have := h1'.1.1 (by omega); omega) (by
      by_contra hc
      have := h2.1.1 (by omega); omega)
    simpa using this

/-- The intervals describe the set `S`. -/
structure IOK (c : Line) (S : List Nat) (I : List Interval) : Prop where
  keys : (I.map (·.line)).Nodup
  min_mem : ∀ x ∈ I, ∃ n ∈ S, x.line ∈ c.getLines n ∧ c.getPos n = x.min
  max_mem : ∀ x ∈ I, ∃ n ∈ S, x.line ∈ c.getLines n ∧ c.getPos n = x.max
  mem : ∀ x ∈ I, ∀ n, x.line ∈ c.getLines n → (n ∈ S ↔ x.min ≤ c.getPos n ∧ c.getPos n ≤ x.max)
  all : ∀ n ∈ S, ∀ l ∈ c.getLines n, ∃ x ∈ I, x.line = l

/-- The nodes of `S` on each line are contiguous. -/
def Contig (c : Line) (S : List Nat) : Prop :=
  ∀ l a b d, l ∈ c.getLines a → l ∈ c.getLines b → l ∈ c.getLines d → a ∈ S → d ∈ S →
    c.getPos a ≤ c.getPos b → c.getPos b ≤ c.getPos d → b ∈ S

theorem Part.line (h : Part c R V) {l n : Nat} (hl : l ∈ c.getLines n) :
    ∃ (line : List Nat) (i : Nat), c.lines[l]? = some line ∧ line[i]? = some n := by
  have := h.valid n l hl
  have e : c.lines[l]? = some c.lines[l] := List.getElem?_eq_getElem this
  obtain ⟨i, hi⟩ := List.mem_iff_getElem?.1 ((h.mem l _ n e).2 hl)
  exact ⟨_, i, e, hi⟩

/-- The count of an entry. -/
theorem Part.count (h : Part c R V) {S : List Nat} (hS : S.Nodup) {l : Nat} {line : List Nat}
    (hl : c.lines[l]? = some line) :
    (S.filter fun n => (c.getLines n).contains l).length = line.countP fun n => S.contains n := by
  rw [List.countP_eq_length_filter]
  apply List.Perm.length_eq
  have hnd : line.Nodup := (h.inc hl).imp fun {a b} hab e => by subst e; omega
  rw [List.perm_ext_iff_of_nodup (hS.filter _) (hnd.filter _)]
  intro n
  simp only [List.mem_filter, List.contains_eq_mem, decide_eq_true_eq, h.mem l line n hl]
  tauto

theorem checkEntries_ok (h : Part c R V) {guess : Guess} (hg : guess.OK) {S : List Nat} (hS : S.Nodup) {m : List Entry}
    (hm : ∀ x ∈ m, EOK c.getPos (S.filter fun n => (c.getLines n).contains x.line) x) :
    ∃ r, c.checkEntries guess m = some r ∧
      (r = none → ¬ Contig c S) ∧
      (∀ I, r = some I → I.map (·.line) = m.map (·.line) ∧ ∀ x ∈ I, (∃ y ∈ m, x = ⟨y.line, y.min, y.max⟩) ∧
        ∀ n, x.line ∈ c.getLines n → x.min ≤ c.getPos n → c.getPos n ≤ x.max → n ∈ S) := by
  induction m with
  | nil =>
    refine ⟨some [], rfl, by simp, ?_⟩
    intro I e
    simp at e; subst e; simp
  | cons x m ih =>
    obtain ⟨r, hr, h1, h2⟩ := ih fun y hy => hm y (by simp [hy])
    have hx := hm x (by simp)
    obtain ⟨a, ha, ea⟩ := hx.min_mem
    obtain ⟨b, hb, eb⟩ := hx.max_mem
    simp only [List.mem_filter, List.contains_eq_mem, decide_eq_true_eq] at ha hb
    obtain ⟨line, i, hl, hi⟩ := h.line ha.2
    obtain ⟨line', j, hl', hj⟩ := h.line hb.2
    rw [hl] at hl'; simp at hl'; subst hl'
    have hbd : ∀ n ∈ line, n ∈ S → x.min ≤ c.getPos n ∧ c.getPos n ≤ x.max := by
      intro n hn hnS
      apply hx.bounds
      simp only [List.mem_filter, List.contains_eq_mem, decide_eq_true_eq]
      exact ⟨hnS, (h.mem _ _ _ hl).1 hn⟩
    have hab := hbd a (List.mem_of_getElem? hi) ha.1
    obtain ⟨k, hk, hkc⟩ := contig (h.inc hl) (S := S) hi hj ha.1 (by rw [ea, eb]; exact hbd) (by omega)
    rw [← h.count hS hl, ← hx.count] at hk
    have hfi := findIndex_ok hg hl (h.inc hl) hi
    rw [ea] at hfi
    simp only [checkEntries, hfi, hl, Option.getD_some, hk]
    rw [eb] at hkc
    by_cases hc : c.getPos k = x.max
    · rw [if_neg (by simpa using hc), hr]
      have hall := hkc.1 hc
      rw [ea] at hall
      cases r with
      | none => exact ⟨none, rfl, fun _ => h1 rfl, by simp⟩
      | some I =>
        refine ⟨_, rfl, by simp, ?_⟩
        intro I' e
        simp at e; subst e
        obtain ⟨h3, h4⟩ := h2 I rfl
        refine ⟨by simp [h3], ?_⟩
        intro y hy
        rcases List.mem_cons.1 hy with hy | hy
        · subst hy
          refine ⟨⟨x, by simp, rfl⟩, ?_⟩
          intro n hn
          exact hall n ((h.mem _ _ _ hl).2 hn)
        · obtain ⟨⟨z, hz, e⟩, h5⟩ := h4 y hy
          exact ⟨⟨z, by simp [hz], e⟩, h5⟩
    · rw [if_pos (by simpa using hc)]
      refine ⟨none, rfl, fun _ hcon => hc (hkc.2 ?_), by simp⟩
      intro n hn h3 h4
      exact hcon x.line a n b ha.2 ((h.mem _ _ _ hl).1 hn) hb.2 ha.1 hb.1 (by omega) (by omega)

theorem IOK.contig (h : IOK c S I) : Contig c S := by
  intro l a b d hla hlb hld ha hd h1 h2
  obtain ⟨x, hx, rfl⟩ := h.all a ha l hla
  have h3 := (h.mem x hx a hla).1 ha
  have h4 := (h.mem x hx d hld).1 hd
  exact (h.mem x hx b hlb).2 ⟨by omega, by omega⟩

/-- `get_intervals_from_nodes`: the intervals exist exactly when the nodes are contiguous on each
line. -/
theorem intervals_ok (h : Part c R V) {guess : Guess} (hg : guess.OK) {S : List Nat} (hS : S.Nodup) :
    ∃ r, c.intervals guess S = some r ∧ (r = none → ¬ Contig c S) ∧ ∀ I, r = some I → IOK c S I := by
  have hm := collect_ok c S
  have hv := vals_nodes h.nodup S
  obtain ⟨r, h1, h2, h3⟩ := checkEntries_ok h hg hS (m := c.collectEntries S) (by
    intro x hx
    rw [← hv]
    exact hm.entry x hx)
  refine ⟨r, h1, h2, ?_⟩
  intro I e
  obtain ⟨h4, h5⟩ := h3 I e
  refine ⟨h4 ▸ hm.keys, ?_, ?_, ?_, ?_⟩
  · intro x hx
    obtain ⟨⟨y, hy, rfl⟩, _⟩ := h5 x hx
    have := hm.entry y hy
    rw [hv] at this
    obtain ⟨n, hn, e⟩ := this.min_mem
    simp only [List.mem_filter, List.contains_eq_mem, decide_eq_true_eq] at hn
    exact ⟨n, hn.1, hn.2, e⟩
  · intro x hx
    obtain ⟨⟨y, hy, rfl⟩, _⟩ := h5 x hx
    have := hm.entry y hy
    rw [hv] at this
    obtain ⟨n, hn, e⟩ := this.max_mem
    simp only [List.mem_filter, List.contains_eq_mem, decide_eq_true_eq] at hn
    exact ⟨n, hn.1, hn.2, e⟩
  · intro x hx n hn
    obtain ⟨⟨y, hy, rfl⟩, h6⟩ := h5 x hx
    have := hm.entry y hy
    rw [hv] at this
    constructor
    · intro hnS
      exact this.bounds n (by simpa using ⟨hnS, hn⟩)
    · rintro ⟨h7, h8⟩
      exact h6 n hn h7 h8
  · intro n hn l hl
    obtain ⟨x, hx, e⟩ := hm.all (l, n) (List.mem_flatMap.2 ⟨n, hn, List.mem_map.2 ⟨l, hl, rfl⟩⟩)
    have : l ∈ I.map (·.line) := by rw [h4]; exact List.mem_map.2 ⟨x, hx, e⟩
    simpa using this

end Line

end Verif.Convex
