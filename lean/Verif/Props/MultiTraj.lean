import Verif.Proofs.MultiTraj
import Verif.Spec.PathExport
import Mathlib.Tactic.Ring
import Mathlib.Tactic.NormNum
import Mathlib.Tactic.Set
/-
C48 (ids and connections of several trajectories) and C56 (loading map packages).
-/
namespace Verif

/-- C48, keys.  Two different ids of 32-bit numbers never have the same key (not even negative
ones), and the submap index of an id with a non-negative one is read back from its key. -/
theorem C48_key (a b : SubmapId) (ha : IsInt32 a.trajectory ∧ IsInt32 a.submap)
    (hb : IsInt32 b.trajectory ∧ IsInt32 b.submap) :
    (submapKey a = submapKey b ↔ a = b) ∧
    (0 ≤ a.submap → ((submapIndexOfKey (submapKey a)).toNat : Int) = a.submap) := by
  unfold IsInt32 at ha hb
  constructor
  · constructor
    · exact submapKey_inj ⟨ha.1.1, ha.1.2, ha.2.1, ha.2.2⟩ ⟨hb.1.1, hb.1.2, hb.2.1, hb.2.2⟩
    · rintro rfl; rfl
  · intro h
    unfold submapIndexOfKey
    rw [UInt64.toNat_toUInt32, submapKey_toNat]
    omega

example : (submapKey ⟨3, 5⟩).toNat = 3 * 4294967296 + 5 ∧
    (submapIndexOfKey (submapKey ⟨3, 5⟩)).toNat = 5 := by decide

/-- C48, connections.  Writing any list of ids of 32-bit numbers as text and parsing the text gives
the same list. -/
theorem C48_connections (ids : List SubmapId)
    (h : ∀ id ∈ ids, IsInt32 id.trajectory ∧ IsInt32 id.submap) :
    connectionsStrToIds (connectionsStr ids) = .ok ids :=
  connections_roundtrip ids h

example : connectionsStr [⟨0, 3⟩, ⟨1, 8⟩] = "[0,3][1,8]".toList := by
  simp [connectionsStr, decInt, decNat, digitChar]

/-- C48, numbers: white space, an optional sign and digits are read as the number they write, up to the
first character that is not a digit; a number outside the range of `int` is undefined behaviour. -/
theorem C48_atoi (sp ds rest : List Char) (sign : Option Char) (v : Nat)
    (hs : ∀ c ∈ sp, c ∈ [' ', '\t', '\n', '\r', Char.ofNat 11, Char.ofNat 12]) (hsign : sign = none ∨ sign = some '-' ∨ sign = some '+') (hv : Spec.digitsVal ds 0 = some v) (hne : ds ≠ [])
    (hr : ∀ c, rest.head? = some c → c < '0' ∨ '9' < c) :
    atoi (sp ++ sign.toList ++ ds ++ rest) =
      if sign = some '-' then (if (v : Int) ≤ 2147483648 then .ok (-v) else .ub)
      else (if (v : Int) ≤ 2147483647 then .ok v else .ub) := by
  replace hs : ∀ c ∈ sp, isSpaceChar c = true := by
    intro c hc
    have h := hs c hc
    simp only [List.mem_cons, List.not_mem_nil, or_false] at h
    rcases h with rfl | rfl | rfl | rfl | rfl | rfl <;> decide
  have hdig : ∀ c : Char, isDigitChar c = true ↔ '0' ≤ c ∧ c ≤ '9' := by
    intro c
    unfold isDigitChar
    rw [decide_eq_true_iff]
    exact Iff.rfl
  have hstop : ∀ acc, atoiDigits rest acc = acc := by
    intro acc
    cases rest with
    | nil => rfl
    | cons c r =>
      simp only [atoiDigits]
      rw [if_neg]
      rw [hdig]
      rintro ⟨h1, h2⟩
      rcases hr c rfl with h | h
      · exact absurd h1 (Char.not_le.2 h)
      · exact absurd h2 (Char.not_le.2 h)
  have hread : ∀ (l : List Char) (acc v : Nat), Spec.digitsVal l acc = some v → atoiDigits (l ++ rest) acc = v := by
    intro l
    induction l with
    | nil => intro acc v h; rw [List.nil_append, hstop]; exact Option.some.inj h
    | cons c l ih =>
      intro acc v h
      simp only [Spec.digitsVal] at h
      split at h
      · rename_i hc
        simp only [List.cons_append, atoiDigits]
        rw [if_pos ((hdig c).2 hc)]
        exact ih _ _ h
      · exact absurd h (by simp)
  have hdrop : ∀ (l t : List Char), (∀ c ∈ l, isSpaceChar c = true) → (l ++ t).dropWhile isSpaceChar = t.dropWhile isSpaceChar := by
    intro l t
    induction l with
    | nil => intro _; rfl
    | cons c l ih =>
      intro h
      rw [List.cons_append, List.dropWhile_cons_of_pos (h c (by simp))]
      exact ih fun d hd => h d (by simp [hd])
  obtain ⟨d, ds', rfl⟩ := List.exists_cons_of_ne_nil hne
  have hd : '0' ≤ d ∧ d ≤ '9' := by
    simp only [Spec.digitsVal] at hv
    split at hv
    · assumption
    · exact absurd hv (by simp)
  have hdn : 48 ≤ d.toNat ∧ d.toNat ≤ 57 := hd
  have hdsp : isSpaceChar d = false := by
    have : ∀ c : Char, c.toNat < 48 → d ≠ c := by rintro c hc rfl; omega
    unfold isSpaceChar
    simp only [decide_eq_false (this ' ' (by decide)), decide_eq_false (this '\t' (by decide)), decide_eq_false (this '\n' (by decide)),
      decide_eq_false (this '\r' (by decide)), decide_eq_false (this (Char.ofNat 11) (by decide)),
      decide_eq_false (this (Char.ofNat 12) (by decide)), Bool.or_self]
  have hval := hread _ _ _ hv
  have hatoi : ∀ w : Int, signedDigits ((sp ++ sign.toList ++ (d :: ds') ++ rest).dropWhile isSpaceChar) = w →
      atoi (sp ++ sign.toList ++ (d :: ds') ++ rest) = if -2147483648 ≤ w ∧ w ≤ 2147483647 then .ok w else .ub := by
    rintro w rfl; rfl
  have hsplit : sp ++ sign.toList ++ (d :: ds') ++ rest = sp ++ (sign.toList ++ ((d :: ds') ++ rest)) := by simp
  rcases hsign with rfl | rfl | rfl
  · rw [hatoi v, if_neg (show ¬ (none : Option Char) = some '-' by simp)]
    · by_cases hb : (v : Int) ≤ 2147483647
      · rw [if_pos ⟨by omega, hb⟩, if_pos hb]
      · rw [if_neg (fun h => hb h.2), if_neg hb]
    · rw [hsplit, hdrop _ _ hs]
      simp only [Option.toList_none, List.nil_append, List.cons_append]
      rw [List.dropWhile_cons_of_neg (by rw [hdsp]; decide)]
      simp only [signedDigits]
      rw [if_neg (by rintro rfl; exact absurd hdn (by decide)), if_neg (by rintro rfl; exact absurd hdn (by decide)),
        ← List.cons_append, hval]
  · rw [hatoi (-v), if_pos (show some '-' = some '-' from rfl)]
    · by_cases hb : (v : Int) ≤ 2147483648
      · rw [if_pos ⟨by omega, by omega⟩, if_pos hb]
      · rw [if_neg (fun h => hb (by omega)), if_neg hb]
    · rw [hsplit, hdrop _ _ hs]
      simp only [Option.toList_some, List.singleton_append]
      rw [List.dropWhile_cons_of_neg (by decide)]
      simp only [signedDigits, if_true]
      rw [hval]
  · rw [hatoi v, if_neg (show ¬ some '+' = some '-' by decide)]
    · by_cases hb : (v : Int) ≤ 2147483647
      · rw [if_pos ⟨by omega, hb⟩, if_pos hb]
      · rw [if_neg (fun h => hb h.2), if_neg hb]
    · rw [hsplit, hdrop _ _ hs]
      simp only [Option.toList_some, List.singleton_append]
      rw [List.dropWhile_cons_of_neg (by decide)]
      simp only [signedDigits, if_true]
      rw [if_neg (by decide), hval]

example : atoi " +12,3".toList = .ok 12 ∧ atoi "2147483648".toList = .ub := by decide +kernel

/-! ### C56 -/

/-- Ids and connections a package can hold. -/
def TrajPkg.Valid (t : TrajPkg) : Prop :=
  ∀ s ∈ t.submaps, ∀ id ∈ s.connected, IsInt32 id.trajectory ∧ IsInt32 id.submap

theorem loadSubmaps_spec (index : Nat) (ox oy : Rat) (l : List TrajSubmap)
    (h : ∀ s ∈ l, ∀ id ∈ s.connected, IsInt32 id.trajectory ∧ IsInt32 id.submap) :
    loadSubmaps index ox oy (l.map fun s =>
      { id := s.id.submap, file := s.file, tx := s.x, ty := s.y, rest := s.rest
        connections := connectionsStr s.connected }) =
    .ok (l.map fun s =>
      { s with id := ⟨index, s.id.submap⟩, x := s.x + ox, y := s.y + oy }) := by
  induction l with
  | nil => rfl
  | cons s l ih =>
    simp only [List.map_cons, loadSubmaps]
    unfold loadSubmap
    dsimp only
    rw [connections_roundtrip _ (h s (by simp))]
    simp only [Outcome.bind_ok, Outcome.pure_eq]
    rw [ih (fun x hx => h x (by simp [hx]))]
    rfl

/-- What loading the packages of trajectories makes of them, counting from `index`. -/
def loadedFrom (ox oy : Rat) : Nat → List TrajPkg → List TrajPkg
  | _, [] => []
  | i, t :: r =>
    { id := i, enuX := 0, enuY := 0
      submaps := t.submaps.map fun s =>
        { s with id := ⟨i, s.id.submap⟩, x := s.x + ox, y := s.y + oy } } :: loadedFrom ox oy (i + 1) r

theorem attrDouble_missing (t : TrajPkg) :
    attrDouble (xmlOfTrajectory t).attrs "utm_x".toList = 0 ∧
      attrDouble (xmlOfTrajectory t).attrs "utm_y".toList = 0 := by
  constructor <;> rfl

theorem loadTrajectories_spec (update : Bool) (l : List TrajPkg)
    (hv : ∀ t ∈ l, t.Valid) :
    ∀ index, loadTrajectories update index (0, 0) (l.map xmlOfTrajectory) =
      .ok (loadedFrom 0 0 index l, (0, 0)) := by
  induction l with
  | nil => intro index; rfl
  | cons t l ih =>
    intro index
    have ha := attrDouble_missing t
    simp only [List.map_cons, loadTrajectories]
    rw [ha.1, ha.2]
    have hb : (if index = 0 ∧ update = true then ((0 : Rat), (0 : Rat)) else (0, 0)) = (0, 0) := by
      split <;> rfl
    rw [hb]
    dsimp only
    rw [sub_zero]
    have hs := loadSubmaps_spec index 0 0 t.submaps (hv t (by simp))
    rw [show (xmlOfTrajectory t).submaps = t.submaps.map _ from rfl, hs]
    simp only [Outcome.bind_ok]
    rw [ih (fun x hx => hv x (by simp [hx]))]
    rfl

/-- The trajectories as they are saved, numbered from `i`: what one expects back. -/
def numberedFrom : Nat → List TrajPkg → List TrajPkg
  | _, [] => []
  | i, t :: r =>
    { t with id := i, submaps := t.submaps.map fun s => { s with id := ⟨i, s.id.submap⟩ } } ::
      numberedFrom (i + 1) r

/-- C56, contents.  Loading a saved package never stops and gives the saved trajectories in order,
numbered from zero, each with its submaps in order, with their indices, files, connections and the
pose numbers that were saved. -/
theorem C56_contents (l : List TrajPkg) (hv : ∀ t ∈ l, t.Valid) :
    ∃ m, loadBase (l.map xmlOfTrajectory) = .ok m ∧
      m.base.map (fun t => (t.id, t.submaps)) =
        (numberedFrom 0 l).map (fun t => (t.id, t.submaps)) := by
  refine ⟨⟨loadedFrom 0 0 0 l, (0, 0)⟩, ?_, ?_⟩
  · unfold loadBase
    rw [loadTrajectories_spec true l hv 0]
    rfl
  · show (loadedFrom 0 0 0 l).map _ = _
    clear hv
    generalize 0 = i
    induction l generalizing i with
    | nil => rfl
    | cons t l ih =>
      simp only [loadedFrom, numberedFrom, List.map_cons, ih, add_zero]

/-- Every connection of the package points to a submap in it, found at its own index. -/
def PkgClosed (l : List TrajPkg) : Prop :=
  ∀ t ∈ l, ∀ s ∈ t.submaps, ∀ id ∈ s.connected, ∃ (k j : Nat) (t' : TrajPkg) (s' : TrajSubmap),
    id = ⟨k, j⟩ ∧ l[k]? = some t' ∧ t'.submaps[j]? = some s' ∧ s'.id.submap = j

/-- The trajectories of a further package as they should be after `n` earlier trajectories: all
trajectory numbers, also those of connections, are moved by `n`. -/
def movedFrom (n : Nat) (l : List TrajPkg) : List TrajPkg :=
  (numberedFrom n l).map fun t =>
    { t with
      enuX := 0
      enuY := 0
      submaps := t.submaps.map fun s =>
        { s with connected := s.connected.map fun c => ⟨c.trajectory + n, c.submap⟩ } }

theorem mapOutcome_ok {α β : Type} {f : α → Outcome β} {g : α → β} :
    ∀ {l : List α}, (∀ x ∈ l, f x = .ok (g x)) → mapOutcome f l = .ok (l.map g) := by
  intro l
  induction l with
  | nil => intro _; rfl
  | cons a l ih =>
    intro h
    simp only [mapOutcome, List.map_cons]
    rw [h a (by simp), ih (fun x hx => h x (by simp [hx]))]
    rfl

theorem numberedFrom_getElem? (l : List TrajPkg) : ∀ (n i : Nat),
    (numberedFrom n l)[i]? = l[i]?.map fun t =>
      { t with id := ((n + i : Nat) : Int)
               submaps := t.submaps.map fun s => { s with id := ⟨((n + i : Nat) : Int), s.id.submap⟩ } } := by
  induction l with
  | nil => intro n i; rfl
  | cons a l ih =>
    intro n i
    cases i with
    | zero => rfl
    | succ i =>
      simp only [numberedFrom, List.getElem?_cons_succ]
      rw [ih (n + 1) i, show n + 1 + i = n + (i + 1) by omega]

theorem loadedFrom_shift (l : List TrajPkg) (n : Nat) : ∀ k,
    (loadedFrom 0 0 k l).map (shiftIds n) =
      (numberedFrom (k + n) l).map fun t => { t with enuX := 0, enuY := 0 } := by
  induction l with
  | nil => intro k; rfl
  | cons a l ih =>
    intro k
    simp only [loadedFrom, numberedFrom, List.map_cons]
    rw [ih (k + 1), show k + 1 + n = k + n + 1 by omega]
    refine congrArg (· :: _) ?_
    simp only [shiftIds, List.map_map, Function.comp_def, add_zero, Nat.cast_add]

theorem mem_numberedFrom {l : List TrajPkg} : ∀ {n : Nat} {t : TrajPkg},
    t ∈ numberedFrom n l → ∃ t0 ∈ l, ∃ i : Nat,
      t.submaps = t0.submaps.map fun s => { s with id := ⟨(i : Int), s.id.submap⟩ } := by
  induction l with
  | nil => intro n t h; cases h
  | cons a l ih =>
    intro n t h
    simp only [numberedFrom, List.mem_cons] at h
    rcases h with rfl | h
    · exact ⟨a, by simp, n, rfl⟩
    · obtain ⟨t0, h0, i, e⟩ := ih h
      exact ⟨t0, by simp [h0], i, e⟩

theorem loadIncremental_spec (m : MultiMap) (hu : m.utm = (0, 0)) (l : List TrajPkg)
    (hv : ∀ t ∈ l, t.Valid) (hc : PkgClosed l) :
    loadIncremental m (l.map xmlOfTrajectory) =
      .ok ⟨m.base ++ movedFrom m.base.length l, m.utm⟩ := by
  unfold loadIncremental
  rw [hu, loadTrajectories_spec false l hv 0]
  simp only [Outcome.bind_ok]
  rw [loadedFrom_shift, Nat.zero_add]
  generalize m.base.length = n
  set inc := (numberedFrom n l).map fun t => { t with enuX := 0, enuY := 0 } with hinc
  rw [mapOutcome_ok (g := fun t =>
    { t with submaps := t.submaps.map fun s =>
        { s with connected := s.connected.map fun c => ⟨c.trajectory + n, c.submap⟩ } })]
  · simp only [Outcome.bind_ok, Outcome.pure_eq, hinc, movedFrom, List.map_map, Function.comp_def]
  · intro t ht
    unfold reconnectTrajectory
    rw [mapOutcome_ok (g := fun s =>
      { s with connected := s.connected.map fun c => ⟨c.trajectory + n, c.submap⟩ })]
    · rfl
    · intro s hs
      unfold reconnectSubmap
      rw [mapOutcome_ok (g := fun c : SubmapId => (⟨c.trajectory + n, c.submap⟩ : SubmapId))]
      · rfl
      · intro id hid
        rw [hinc] at ht
        obtain ⟨t1, ht1, rfl⟩ := List.mem_map.mp ht
        obtain ⟨t0, ht0, i, e⟩ := mem_numberedFrom ht1
        simp only [e] at hs
        obtain ⟨s0, hs0, rfl⟩ := List.mem_map.mp hs
        obtain ⟨k, j, t', s', rfl, hk, hj, hsj⟩ := hc t0 ht0 s0 hs0 id hid
        unfold reconnect
        rw [if_pos (Int.natCast_nonneg k), Int.toNat_natCast, hinc, List.getElem?_map,
          numberedFrom_getElem?, hk]
        simp only [Option.map_some]
        rw [if_pos (Int.natCast_nonneg j), Int.toNat_natCast, List.getElem?_map, hj]
        simp only [Option.map_some, hsj, Nat.cast_add, Outcome.ok.injEq, SubmapId.mk.injEq,
          and_true]
        exact Int.add_comm _ _

/-- C56, further packages.  Loading any number of further packages never stops, keeps what was
loaded before and appends the trajectories of each, with all trajectory numbers (of trajectories,
submaps and connections) moved by the number of earlier trajectories. -/
theorem C56_further (m : MultiMap) (hu : m.utm = (0, 0)) (more : List (List TrajPkg))
    (hv : ∀ l ∈ more, (∀ t ∈ l, t.Valid) ∧ PkgClosed l) :
    ∃ m', more.foldlM (fun (m : MultiMap) (l : List TrajPkg) =>
        loadIncremental m (l.map xmlOfTrajectory)) m = .ok m' ∧
      m'.base = more.foldl (fun b l => b ++ movedFrom b.length l) m.base := by
  induction more generalizing m with
  | nil => exact ⟨m, rfl, rfl⟩
  | cons l more ih =>
    have hl := hv l (by simp)
    obtain ⟨m', h1, h2⟩ := ih ⟨m.base ++ movedFrom m.base.length l, m.utm⟩ hu
      (fun x hx => hv x (by simp [hx]))
    refine ⟨m', ?_, h2⟩
    rw [List.foldlM_cons, loadIncremental_spec m hu l hl.1 hl.2]
    exact h1

theorem movedFrom_ids (n : Nat) (l : List TrajPkg) :
    (movedFrom n l).length = l.length ∧ ∀ (i : Nat) (t : TrajPkg),
      (movedFrom n l)[i]? = some t →
        t.id = ((n + i : Nat) : Int) ∧ ∀ s ∈ t.submaps, s.id.trajectory = ((n + i : Nat) : Int) := by
  constructor
  · unfold movedFrom
    rw [List.length_map]
    induction l generalizing n with
    | nil => rfl
    | cons a l ih => simp only [numberedFrom, List.length_cons, ih]
  · intro i t h
    unfold movedFrom at h
    rw [List.getElem?_map, numberedFrom_getElem?, Option.map_map, Option.map_eq_some_iff] at h
    obtain ⟨t0, _, rfl⟩ := h
    refine ⟨rfl, ?_⟩
    intro s hs
    simp only [Function.comp, List.map_map, List.mem_map] at hs
    obtain ⟨s0, _, rfl⟩ := hs
    rfl

/-- C56, ids.  After loading a package and then any number of further ones, the trajectory at
position `i` has id `i`, and so have all its submaps; so submaps of different trajectories never
share an id. -/
theorem C56_ids (first : List TrajPkg) (more : List (List TrajPkg))
    (h1 : ∀ t ∈ first, t.Valid) (h2 : ∀ l ∈ more, (∀ t ∈ l, t.Valid) ∧ PkgClosed l) :
    ∃ m, (do
      let m ← loadBase (first.map xmlOfTrajectory)
      more.foldlM (fun (m : MultiMap) (l : List TrajPkg) =>
        loadIncremental m (l.map xmlOfTrajectory)) m) = .ok m ∧
      m.base.length = first.length + (more.map List.length).sum ∧
      ∀ (i : Nat) (t : TrajPkg), m.base[i]? = some t →
        t.id = i ∧ ∀ s ∈ t.submaps, s.id.trajectory = i := by
  have hload : ∀ (l : List TrajPkg) (k : Nat),
      (loadedFrom 0 0 k l).length = l.length ∧ ∀ (i : Nat) (t : TrajPkg),
        (loadedFrom 0 0 k l)[i]? = some t →
          t.id = ((k + i : Nat) : Int) ∧ ∀ s ∈ t.submaps, s.id.trajectory = ((k + i : Nat) : Int) := by
    intro l
    induction l with
    | nil => intro k; exact ⟨rfl, by intro i t h; cases h⟩
    | cons a l ih =>
      intro k
      refine ⟨by simp [loadedFrom, (ih (k + 1)).1], ?_⟩
      intro i t h
      cases i with
      | zero =>
        simp only [loadedFrom, List.getElem?_cons_zero, Option.some.injEq] at h
        subst h
        refine ⟨rfl, ?_⟩
        intro s hs
        obtain ⟨s0, _, rfl⟩ := List.mem_map.mp hs
        rfl
      | succ i =>
        simp only [loadedFrom, List.getElem?_cons_succ] at h
        have := (ih (k + 1)).2 i t h
        rw [show k + (i + 1) = k + 1 + i by omega]
        exact this
  have hstart : loadBase (first.map xmlOfTrajectory) = .ok ⟨loadedFrom 0 0 0 first, (0, 0)⟩ := by
    unfold loadBase
    rw [loadTrajectories_spec true first h1 0]
    rfl
  rw [hstart]
  simp only [Outcome.bind_ok]
  obtain ⟨m, hm1, hm2⟩ := C56_further ⟨loadedFrom 0 0 0 first, (0, 0)⟩ rfl more h2
  refine ⟨m, hm1, ?_⟩
  rw [hm2]
  clear hm1 hm2 hstart h2 h1
  have key : ∀ (more : List (List TrajPkg)) (b : List TrajPkg),
      (∀ (i : Nat) (t : TrajPkg), b[i]? = some t →
        t.id = i ∧ ∀ s ∈ t.submaps, s.id.trajectory = i) →
      (more.foldl (fun b l => b ++ movedFrom b.length l) b).length =
        b.length + (more.map List.length).sum ∧
      ∀ (i : Nat) (t : TrajPkg),
        (more.foldl (fun b l => b ++ movedFrom b.length l) b)[i]? = some t →
        t.id = i ∧ ∀ s ∈ t.submaps, s.id.trajectory = i := by
    intro more
    induction more with
    | nil => intro b hb; exact ⟨by simp, hb⟩
    | cons l more ih =>
      intro b hb
      obtain ⟨h1, h2⟩ := ih (b ++ movedFrom b.length l) (by
        intro i t hi
        rw [List.getElem?_append] at hi
        split at hi
        · exact hb i t hi
        · have := (movedFrom_ids b.length l).2 _ t hi
          rwa [show b.length + (i - b.length) = i by omega] at this)
      refine ⟨?_, h2⟩
      rw [List.foldl_cons, h1]
      simp only [List.length_append, List.map_cons, List.sum_cons, (movedFrom_ids b.length l).1]
      omega
  obtain ⟨k1, k2⟩ := key more (loadedFrom 0 0 0 first) (by
    intro i t hi
    have := (hload first 0).2 i t hi
    simpa using this)
  exact ⟨by rw [k1, (hload first 0).1], k2⟩

/-- The pose a submap should get: its saved position, moved from its own trajectory's origin to the
first trajectory's. -/
def inFirstFrame (first : TrajPkg) (t : TrajPkg) (s : TrajSubmap) : Rat × Rat :=
  (s.x + (t.enuX - first.enuX), s.y + (t.enuY - first.enuY))

/-- C56, poses, the part that holds: if all saved trajectories have the same origin, the loaded
submaps are where they should be. -/
theorem C56_origin_partial (first : TrajPkg) (r : List TrajPkg)
    (hv : ∀ t ∈ first :: r, t.Valid)
    (hsame : ∀ t ∈ first :: r, t.enuX = first.enuX ∧ t.enuY = first.enuY) :
    ∃ m, loadBase ((first :: r).map xmlOfTrajectory) = .ok m ∧
      m.base.map (fun t => t.submaps.map fun s => (s.x, s.y)) =
        (first :: r).map (fun t => t.submaps.map (inFirstFrame first t)) := by
  refine ⟨⟨loadedFrom 0 0 0 (first :: r), (0, 0)⟩, ?_, ?_⟩
  · unfold loadBase
    rw [loadTrajectories_spec true _ hv 0]
    rfl
  · show (loadedFrom 0 0 0 (first :: r)).map _ = _
    clear hv
    revert hsame
    generalize first :: r = l
    generalize 0 = i
    intro hsame
    induction l generalizing i with
    | nil => rfl
    | cons t l ih =>
      simp only [loadedFrom, List.map_cons]
      rw [ih (i + 1) (fun x hx => hsame x (by simp [hx]))]
      congr 1
      rw [List.map_map]
      apply List.map_congr_left
      intro s _
      have := hsame t (by simp)
      simp only [Function.comp, inFirstFrame, this.1, this.2, sub_self]

/-- C56, poses, is false in general: the origin of a trajectory is saved under one name
("enu_x") and read under another ("utm_x"), so trajectories with different origins are loaded on
top of each other. -/
theorem C56_origin_fails : ¬ (∀ (first : TrajPkg) (r : List TrajPkg),
    (∀ t ∈ first :: r, t.Valid) →
    ∃ m, loadBase ((first :: r).map xmlOfTrajectory) = .ok m ∧
      m.base.map (fun t => t.submaps.map fun s => (s.x, s.y)) =
        (first :: r).map (fun t => t.submaps.map (inFirstFrame first t))) := by
  intro h
  let s : TrajSubmap := ⟨⟨0, 0⟩, [], 1, 2, [], []⟩
  have hv : ∀ t ∈ [⟨0, 10, 20, [s]⟩, (⟨1, 40, 60, [s]⟩ : TrajPkg)], t.Valid := by
    intro t ht x hx id hid
    simp only [List.mem_cons, List.not_mem_nil, or_false] at ht
    rcases ht with rfl | rfl <;>
    · simp only [List.mem_singleton] at hx
      subst hx
      cases hid
  obtain ⟨m, hm, hp⟩ := h ⟨0, 10, 20, [s]⟩ [⟨1, 40, 60, [s]⟩] hv
  have hl : loadBase ([⟨0, 10, 20, [s]⟩, (⟨1, 40, 60, [s]⟩ : TrajPkg)].map
      xmlOfTrajectory) =
      .ok ⟨loadedFrom 0 0 0 [⟨0, 10, 20, [s]⟩, ⟨1, 40, 60, [s]⟩], (0, 0)⟩ := by
    unfold loadBase
    rw [loadTrajectories_spec true _ hv 0]
    rfl
  rw [hl] at hm
  simp only [Outcome.ok.injEq] at hm
  subst hm
  simp only [loadedFrom, List.map_cons, List.map_nil, inFirstFrame, s, List.cons.injEq,
    Prod.mk.injEq] at hp
  have := hp.2.1.1.1
  norm_num at this

/-- A package of two trajectories, the second with a connection to the first. -/
example : ∀ t ∈ ([⟨0, 10, 20, [⟨⟨0, 0⟩, [], 1, 2, [], [⟨0, 1⟩]⟩, ⟨⟨0, 1⟩, [], 3, 4, [], []⟩]⟩,
    ⟨1, 10, 20, [⟨⟨1, 0⟩, [], 5, 6, [], [⟨0, 1⟩]⟩]⟩] : List TrajPkg), t.Valid := by
  intro t ht s hs id hid
  simp only [List.mem_cons, List.not_mem_nil, or_false] at ht
  rcases ht with rfl | rfl <;>
  · simp only [List.mem_cons, List.not_mem_nil, or_false] at hs
    rcases hs with rfl | rfl <;> simp_all [IsInt32]

/-- Its connections are closed: submap 1 of trajectory 0 is found. -/
example : PkgClosed [⟨0, 10, 20, [⟨⟨0, 0⟩, [], 1, 2, [], [⟨0, 1⟩]⟩, ⟨⟨0, 1⟩, [], 3, 4, [], []⟩]⟩] := by
  intro t ht s hs id hid
  refine ⟨0, 1, ⟨0, 10, 20, [⟨⟨0, 0⟩, [], 1, 2, [], [⟨0, 1⟩]⟩, ⟨⟨0, 1⟩, [], 3, 4, [], []⟩]⟩,
    ⟨⟨0, 1⟩, [], 3, 4, [], []⟩, ?_, rfl, rfl, rfl⟩
  simp only [List.mem_cons, List.not_mem_nil, or_false] at ht
  subst ht
  simp only [List.mem_cons, List.not_mem_nil, or_false] at hs
  rcases hs with rfl | rfl
  · simpa using hid
  · cases hid

end Verif
