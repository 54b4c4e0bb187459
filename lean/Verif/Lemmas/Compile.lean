import Verif.Lemmas.Hygiene
import Verif.Spec.Compile
/-!
# Lemmas: the paths in the trees of emitted types
-/
namespace Bindgen
open Spec

theorem segPaths_names (l : List Str) : RSeg.paths (names l) = [] := by
  unfold names
  induction l with
  | nil => rfl
  | cons s l ih => simp only [List.map_cons, RSeg.paths, RType.pathsAll, List.nil_append]; exact ih

theorem segPaths_append : ∀ l l' : List RSeg, RSeg.paths (l ++ l') = RSeg.paths l ++ RSeg.paths l'
  | [], _ => rfl
  | .mk _ args :: l, l' => by simp only [List.cons_append, RSeg.paths, segPaths_append l l', List.append_assoc]

theorem segNames_names (l : List Str) : segNames (names l) = l := by
  unfold names
  induction l with
  | nil => rfl
  | cons s l ih => simp only [List.map_cons, segNames]; rw [ih]

theorem paths_abs (l : List Str) : (RType.path true (names l)).paths = [] := by
  simp only [RType.paths, segPaths_names, if_true, List.append_nil]

theorem paths_rel (l : List Str) : (RType.path false (names l)).paths = [l] := by
  simp only [RType.paths, segPaths_names, segNames_names, Bool.false_eq_true, if_false, List.append_nil]

theorem paths_gen (l : List Str) (last : Str) (args : List RType) : (gen true l last args).paths = RType.pathsAll args := by
  simp only [gen, RType.paths, segPaths_append, segPaths_names, List.nil_append, RSeg.paths, List.append_nil, if_true]

theorem paths_life (s : Str) : (RType.life s).paths = [] := rfl

/-- The path in the tree of a path. -/
theorem paths_path {p : Path} {r : List Str} (h : r ∈ p.tree.paths) : p.leadingColon = false ∧ r = p.segs.map fun s => lexTrim s.rs := by
  unfold Path.tree at h
  cases hp : p.leadingColon with
  | true => rw [hp, paths_abs] at h; cases h
  | false => rw [hp, paths_rel, List.mem_singleton] at h; exact ⟨rfl, h⟩

mutual
/-- The relative paths in the tree of a type: types of Rust, and references to generated types. -/
theorem ty_paths {r : List Str} : ∀ (t : RsTy), r ∈ t.tree.paths → (∃ x ∈ primTypes, r = [x]) ∨ ∃ p, Mentions p t ∧ r ∈ p.tree.paths
  | .bool, h => by rw [RsTy.tree, paths_rel, List.mem_singleton] at h; exact .inl ⟨_, by decide, h⟩
  | .f64, h => by rw [RsTy.tree, paths_rel, List.mem_singleton] at h; exact .inl ⟨_, by decide, h⟩
  | .i64, h => by rw [RsTy.tree, paths_rel, List.mem_singleton] at h; exact .inl ⟨_, by decide, h⟩
  | .u8, h => by rw [RsTy.tree, paths_rel, List.mem_singleton] at h; exact .inl ⟨_, by decide, h⟩
  | .string, h => by rw [RsTy.tree, paths_abs] at h; cases h
  | .strRef, h => by rw [RsTy.tree, RType.paths, paths_rel, List.mem_singleton] at h; exact .inl ⟨_, by decide, h⟩
  | .option t, h => by
    rw [RsTy.tree, paths_gen, RType.pathsAll, RType.pathsAll, List.append_nil] at h
    exact (ty_paths t h).imp id fun ⟨p, hm, hu⟩ => ⟨p, .option hm, hu⟩
  | .hashMap k v, h => by
    rw [RsTy.tree, paths_gen, RType.pathsAll, RType.pathsAll, RType.pathsAll, List.append_nil, List.mem_append] at h
    rcases h with h | h
    · exact (ty_paths k h).imp id fun ⟨p, hm, hu⟩ => ⟨p, .key hm, hu⟩
    · exact (ty_paths v h).imp id fun ⟨p, hm, hu⟩ => ⟨p, .value hm, hu⟩
  | .hashSet t, h => by
    rw [RsTy.tree, paths_gen, RType.pathsAll, RType.pathsAll, List.append_nil] at h
    exact (ty_paths t h).imp id fun ⟨p, hm, hu⟩ => ⟨p, .hashSet hm, hu⟩
  | .vec t, h => by
    have he : (RsTy.vec t).tree.paths = [c!"Vec"] :: t.tree.paths := by
      simp only [RsTy.tree, gen, names, List.map_nil, List.nil_append, RType.paths, segNames, RSeg.paths, RType.pathsAll, List.append_nil,
        List.cons_append, Bool.false_eq_true, if_false]
    rw [he, List.mem_cons] at h
    rcases h with h | h
    · exact .inl ⟨_, by decide, h⟩
    · exact (ty_paths t h).imp id fun ⟨p, hm, hu⟩ => ⟨p, .vec hm, hu⟩
  | .slice t, h => by
    rw [RsTy.tree, RType.paths, RType.paths] at h
    exact (ty_paths t h).imp id fun ⟨p, hm, hu⟩ => ⟨p, .slice hm, hu⟩
  | .ref t, h => by
    rw [RsTy.tree, RType.paths] at h
    exact (ty_paths t h).imp id fun ⟨p, hm, hu⟩ => ⟨p, .ref hm, hu⟩
  | .tuple ts, h => by
    rw [RsTy.tree, RType.paths] at h
    exact (tys_paths ts h).imp id fun ⟨p, t, ht, hm, hu⟩ => ⟨p, .tuple ht hm, hu⟩
  | .stdNet n, h => by rw [RsTy.tree, paths_abs] at h; cases h
  | .pathBuf, h => by rw [RsTy.tree, paths_abs] at h; cases h
  | .path, h => by rw [RsTy.tree, paths_abs] at h; cases h
  | .bound n, h => by
    rw [RsTy.tree, paths_gen] at h
    simp only [RType.pathsAll, paths_life, paths_abs, List.append_nil] at h
    cases h
  | .boundLocal p, h => by
    rw [RsTy.tree, paths_gen] at h
    simp only [RType.pathsAll, paths_life, List.append_nil, List.nil_append] at h
    exact .inr ⟨p, .here, h⟩
  | .boundNumpy, h => by
    rw [RsTy.tree, paths_gen] at h
    simp only [RType.pathsAll, paths_life, paths_abs, paths_gen, List.append_nil] at h
    cases h
  | .implIntoPy n, h => by
    rw [RsTy.tree, RType.paths, paths_gen] at h
    simp only [RType.pathsAll, paths_gen, paths_abs, List.append_nil] at h
    cases h
  | .implIntoPyDict, h => by rw [RsTy.tree, RType.paths, paths_abs] at h; cases h
theorem tys_paths {r : List Str} : ∀ (ts : List RsTy), r ∈ RType.pathsAll (RsTy.trees ts) →
    (∃ x ∈ primTypes, r = [x]) ∨ ∃ p, ∃ t ∈ ts, Mentions p t ∧ r ∈ p.tree.paths
  | [], h => by cases h
  | t :: ts, h => by
    rw [RsTy.trees, RType.pathsAll, List.mem_append] at h
    rcases h with h | h
    · exact (ty_paths t h).imp id fun ⟨p, hm, hu⟩ => ⟨p, t, List.mem_cons_self, hm, hu⟩
    · exact (tys_paths ts h).imp id fun ⟨p, t, ht, hm, hu⟩ => ⟨p, t, List.mem_cons_of_mem _ ht, hm, hu⟩
end

/-- The relative paths in the tree of a signature. -/
theorem sig_paths {s : Sig} {r : List Str} (h : r ∈ s.tree.paths) :
    (∃ x ∈ primTypes, r = [x]) ∨ (r = [c!"Self"] ∧ s.ret = .selfBound) ∨ ∃ p, SigMentions p s ∧ r ∈ p.tree.paths := by
  rcases List.mem_append.1 h with h | h
  · simp only [Sig.tree, List.flatMap_cons, List.mem_append] at h
    rcases h with h | h
    · cases hr : s.recv with
      | self => rw [hr] at h; cases h
      | py =>
        rw [hr] at h
        simp only [Recv.tree, RParam.paths, paths_gen, RType.pathsAll, paths_life, List.append_nil] at h
        cases h
    · obtain ⟨q, hq, hu⟩ := List.mem_flatMap.1 h
      obtain ⟨⟨x, t⟩, hp, rfl⟩ := List.mem_map.1 hq
      exact (ty_paths t hu).imp id fun ⟨p, hm, hu⟩ => .inr ⟨p, .inl ⟨x, t, hp, hm⟩, hu⟩
  · simp only [Sig.tree, paths_gen, RType.pathsAll, List.append_nil] at h
    cases hr : s.ret with
    | ty t =>
      rw [hr] at h
      exact (ty_paths t h).imp id fun ⟨p, hm, hu⟩ => .inr ⟨p, .inr ⟨t, hr, hm⟩, hu⟩
    | selfBound =>
      rw [hr] at h
      simp only [Ret.tree, paths_gen, RType.pathsAll, paths_life, paths_rel, List.append_nil, List.nil_append, List.mem_singleton] at h
      exact .inr (.inl ⟨h, rfl⟩)
    | unit => rw [hr] at h; cases h

/-- The paths of the function that embeds a source. -/
theorem embed_paths (s n f : Str) : (embedTree s n f).sig.paths = [] := rfl

end Bindgen
