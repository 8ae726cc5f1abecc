import Verif.Model.DiskFull
import Verif.Props.CloudIO
import Verif.Props.Crash
/-! C132: what did not fit on the disk is noticed when it is read. -/
namespace Verif
open Spec

theorem serializeCloud_length (c : BitsCloud) : (serializeCloud c).length = 20 + 20 * c.points.length := by
  have hflat : ∀ l : List BitsPoint, (l.flatMap BitsPoint.image).length = 20 * l.length := by
    intro l
    induction l with
    | nil => rfl
    | cons a l ih => simp [ih]; omega
  unfold serializeCloud
  simp only [List.length_append, time_image_length, leBytes_length, hflat]

/-- Saving, clearing and reading come down to reading the bytes that were kept. -/
theorem swapShort_eq (maxPoints kept : Nat) (h : Holder) (files : Files) (name : String) (hn : name ≠ "")
    (hp : h.inner.points ≠ []) (hm : h.inMemory = true) :
    Holder.swapShort maxPoints kept (h, files) name =
      (deserializeCloud maxPoints { rest := (serializeCloud h.inner).take kept } emptyCloud).bind fun r =>
        if r.2.points = [] then .abort else .ok r.2 := by
  unfold Holder.swapShort Holder.saveShort Holder.readCloud
  simp only [Holder.step, hn, hp, hm, if_false, bind, Outcome.bind, pure, Bool.not_true, Bool.false_eq_true, cutFile,
    if_true, Option.map_some, Bool.not_false]
  cases deserializeCloud maxPoints { rest := (serializeCloud h.inner).take kept } emptyCloud with
  | abort => rfl
  | ub => rfl
  | ok r =>
    by_cases he : r.2.points = []
    · simp [Holder.setInner, he]
    · simp [Holder.setInner, he]

/-- C132, the part that holds for a cloud moved to the disk: if the whole file got there, reading gives the cloud back,
bit for bit; if not even its header got there, the program stops. -/
theorem C132_swap_partial (maxPoints kept : Nat) (h : Holder) (files : Files) (name : String) (hn : name ≠ "")
    (hp : h.inner.points ≠ []) (hm : h.inMemory = true) (hs : h.inner.points.length < 2 ^ 64)
    (hmax : h.inner.points.length ≤ maxPoints) :
    (20 + 20 * h.inner.points.length ≤ kept → Holder.swapShort maxPoints kept (h, files) name = .ok h.inner) ∧
    (kept < 20 → Holder.swapShort maxPoints kept (h, files) name = .abort) := by
  rw [swapShort_eq _ _ _ _ _ hn hp hm]
  constructor
  · intro hk
    have := C09_roundtrip h.inner emptyCloud [] maxPoints hs hmax
    rw [List.append_nil] at this
    rw [List.take_of_length_le (by rw [serializeCloud_length]; exact hk), this]
    simp [Outcome.bind, hp]
  · intro hk
    obtain ⟨st, hr⟩ : ∃ st, deserializeCloud maxPoints { rest := (serializeCloud h.inner).take kept } emptyCloud =
        .ok (false, { emptyCloud with stamp := st }) := by
      obtain ⟨r, hr⟩ := C10_header_partial h.inner emptyCloud kept hk maxPoints
      rw [hr]
      unfold deserializeCloud at hr
      dsimp only at hr
      split at hr
      · exact ⟨_, by rw [← hr]⟩
      split at hr
      · exact ⟨_, by rw [← hr]⟩
      · exfalso
        rename_i h1 h2
        have hl : ((serializeCloud h.inner).take kept).length < 20 := by simp; omega
        generalize (serializeCloud h.inner).take kept = bytes at h1 h2 hl
        have g1 : ∀ (s : IStream) (o : List UInt8), (s.read o).2.good = true →
            (s.read o).2.rest.length + o.length = s.rest.length := by
          intro s o hg
          unfold IStream.read at hg ⊢
          split at hg
          · simp_all [IStream.good]
          split at hg
          · rename_i ha hb
            rw [if_neg ha, if_pos hb]
            simp; omega
          · simp [IStream.good] at hg
        have a1 := g1 _ _ (by simpa using h1)
        have a2 := g1 _ _ (by simpa using h2)
        simp only [time_image_length, leBytes_length] at a1 a2
        omega
    rw [hr]
    simp [Outcome.bind, emptyCloud]

/-- C132 is false for a cloud moved to the disk whenever the header but not the whole file got there, for every cloud:
reading gives, without an error, a cloud of the same time and number of points, of which those completely kept are right
and all but one of the others are invented: they lie at the origin. -/
theorem C132_swap_fails (maxPoints kept : Nat) (h : Holder) (files : Files) (name : String) (hn : name ≠ "")
    (hm : h.inMemory = true) (hs : h.inner.points.length < 2 ^ 64) (hmax : h.inner.points.length ≤ maxPoints)
    (h1 : 20 ≤ kept) (h2 : kept < 20 + 20 * h.inner.points.length) :
    ∃ r, Holder.swapShort maxPoints kept (h, files) name = .ok r ∧ r.stamp = h.inner.stamp ∧
      r.points.length = h.inner.points.length ∧
      r.points.take ((kept - 20) / 20) = h.inner.points.take ((kept - 20) / 20) ∧
      ∀ i, (kept - 20) / 20 < i → i < h.inner.points.length → r.points[i]? = some BitsPoint.zero := by
  have hp : h.inner.points ≠ [] := by
    intro e
    rw [e] at h2
    simp at h2
    omega
  obtain ⟨k, hk⟩ : ∃ k, k = (kept - 20) / 20 := ⟨_, rfl⟩
  obtain ⟨t, ht⟩ : ∃ t, t = (kept - 20) % 20 := ⟨_, rfl⟩
  have hkl : k < h.inner.points.length := by omega
  have hkept : kept = 20 + 20 * k + t := by omega
  have hfl : t ≤ ((h.inner.points.drop k).flatMap BitsPoint.image).length := by
    cases hd : h.inner.points.drop k with
    | nil =>
      have := congrArg List.length hd
      simp at this
      omega
    | cons a l => simp; omega
  obtain ⟨q, hq, -⟩ := C10_truncated_points_partial h.inner emptyCloud k
    (((h.inner.points.drop k).flatMap BitsPoint.image).take t) (((h.inner.points.drop k).flatMap BitsPoint.image).drop t)
    maxPoints hs hmax hkl (by rw [List.length_take]; omega) (List.take_append_drop _ _).symm
  rw [List.length_take, Nat.min_eq_left hfl, ← hkept] at hq
  have hz : resizePoints emptyCloud.points h.inner.points.length = List.replicate h.inner.points.length BitsPoint.zero := by
    simp [resizePoints, emptyCloud]
  rw [hz] at hq
  refine ⟨⟨h.inner.stamp, h.inner.points.take k ++ q ::
    (List.replicate h.inner.points.length BitsPoint.zero).drop (k + 1)⟩, ?_, rfl, ?_, ?_, ?_⟩
  · rw [swapShort_eq _ _ _ _ _ hn hp hm, hq]
    simp only [Outcome.bind]
    rw [if_neg (by simp)]
  · simp
    omega
  · rw [← hk]
    show (h.inner.points.take k ++ _).take k = _
    rw [List.take_append_of_le_length (by simp; omega), List.take_take, Nat.min_self]
  · intro i hi hil
    rw [← hk] at hi
    show (h.inner.points.take k ++ q :: (List.replicate h.inner.points.length BitsPoint.zero).drop (k + 1))[i]? = _
    rw [List.getElem?_append_right (by simp; omega)]
    have hlen : (h.inner.points.take k).length = k := by simp; omega
    rw [hlen]
    obtain ⟨j, hj⟩ : ∃ j, i = k + 1 + j := ⟨i - k - 1, by omega⟩
    subst hj
    rw [show k + 1 + j - k = j + 1 by omega, List.getElem?_cons_succ, List.getElem?_drop, List.getElem?_replicate,
      if_pos hil]

/-- C132, the part that holds for the description of a packaged map: the pieces are there, the description was cut short
at any place: the joining tool returns an error or gives the whole map. -/
theorem C132_description_partial {vm : List (Vec3 Rat × List (Vec3 Rat)) → List (Vec3 Rat)} {eo : Bool} {stack : Nat}
    {o : PkgOptions} {submaps : List PkgSubmap} {pkg : Package} (d : Disk) (path descr : List Char)
    (hp : path = [] ∨ EndsWithSlash path) (hd : '/' ∉ descr) (hpre : PlainValue o.filePrefix)
    (h : savePackageF vm eo stack o submaps = .ok (some pkg))
    (hc : ∀ p ∈ pkg.pieces, d (path ++ p.file) = some (.cloud p.cloud)) (kept : Nat)
    (hs : d (path ++ descr) = some (.text ((saveXml (packageDoc pkg.description)).take kept))) :
    joinTool d (path ++ descr) = none ∨ joinTool d (path ++ descr) = some (wholeMap pkg) := by
  have hplain := package_plain hpre h
  obtain ⟨o1, o2⟩ := packageDoc_ok pkg.description fun e he => (hplain e he).2.2
  rcases prefix_load _ _ _ o1 o2 _ (List.take_prefix kept (saveXml (packageDoc pkg.description))) with ⟨e, he⟩ | he
  · left
    unfold joinTool
    rw [hs]
    dsimp only
    have he' : loadXml ((saveXml (packageDoc pkg.description)).take kept) = .error e := he
    rw [he']
  · right
    exact join_of_doc d path descr hp hd hpre h _ hs he hc

/-- C132, the part that holds for a map of trajectories: a map file cut short at any place is refused by the loader, or
loads every trajectory with all its submaps. -/
theorem C132_map_partial (d : Disk) (file : List Char) (l : List TrajPkg) (h : ∀ t ∈ l, TrajStorable t) (kept : Nat)
    (hs : d file = some (.text ((saveXml (mapDoc l)).take kept))) :
    loadBaseFile d file = .abort ∨ ∃ m, loadBaseFile d file = .ok m ∧
      m.base.map (fun t => (t.id, t.submaps)) = (numberedFrom 0 l).map (fun t => (t.id, t.submaps)) := by
  have hk : KilledWhile (fun n => if n = file then none else d n) ([] ++ mapWrites file l ++ []) d := by
    refine .inr (.inl ⟨.text ((saveXml (mapDoc l)).take kept), ⟨_, List.take_prefix _ _, rfl⟩, ?_⟩)
    funext n
    by_cases hn : n = file
    · subst hn
      rw [hs]
      exact (write_same _ _ _).symm
    · rw [write_other hn, if_neg hn]
  rcases C131_map_partial _ file l h [] [] (by simp) (by intro w hw; cases hw) (by intro w hw; cases hw) d hk with h | h
  · exact .inl h
  · exact .inr h.1

/-! ### runs -/

/-- Two points. -/
def fullDiskHolder : Holder := ⟨⟨⟨5, 6, 1⟩, [⟨1, 2, 3, 4, 5⟩, ⟨6, 7, 8, 9, 10⟩]⟩, 2, false, "", true⟩

/-- 40 of 60 bytes were kept: the second point has moved to the origin. -/
example : Holder.swapShort 1000 40 (fullDiskHolder, fun _ => none) "a" = .ok ⟨⟨5, 6, 1⟩, [⟨1, 2, 3, 4, 5⟩, ⟨0, 0, 0, 0, 0⟩]⟩ ∧
    Holder.swapShort 1000 60 (fullDiskHolder, fun _ => none) "a" = .ok fullDiskHolder.inner ∧
    Holder.swapShort 1000 19 (fullDiskHolder, fun _ => none) "a" = .abort := by
  refine ⟨?_, ?_, ?_⟩ <;> decide +kernel

/-- The same for a packaged map of one piece: cut by two characters the description is refused, cut by one it is complete. -/
example : ∃ pkg, crashPkg oneSubmap = some pkg ∧ pkg.pieces ≠ [] ∧
    loadXml ((saveXml (packageDoc pkg.description)).take ((saveXml (packageDoc pkg.description)).length - 1)) =
      .ok (packageDoc pkg.description) ∧
    (loadXml ((saveXml (packageDoc pkg.description)).take ((saveXml (packageDoc pkg.description)).length - 2))).toOption =
      none := by
  obtain ⟨pkg, hp⟩ : ∃ pkg, crashPkg oneSubmap = some pkg := Option.isSome_iff_exists.1 (by decide +kernel)
  have e : pkg = (crashPkg oneSubmap).get (by decide +kernel) := by simp [hp]
  subst e
  refine ⟨_, hp, ?_, ?_, ?_⟩ <;> decide +kernel

end Verif
