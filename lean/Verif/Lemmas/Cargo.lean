import Verif.Props.CargoSpec
import Verif.Props.Link
import Verif.Lemmas.BasicTerm

/-!
# Lemmas about cargo commands
-/

namespace Cackle.Cargo
open Cackle Perm Identity

/-- Two views one after the other. -/
def View.append (a b : View) : View :=
  { opts := a.opts ++ b.opts, others := a.others ++ b.others, after := b.after, lacks := b.lacks }

theorem View.nil_append (b : View) : View.append {} b = b := rfl

theorem View.opt_append (o v : Str) (a b : View) : View.append (View.opt o v a) b = View.opt o v (View.append a b) := rfl

theorem View.other_append (x : Str) (a b : View) : View.append (View.other x a) b = View.other x (View.append a b) := rfl

theorem view_append (xs ys : List Str) (h : Closed xs) : view (xs ++ ys) = (view xs).append (view ys) := by
  induction xs using view.induct with
  | case1 => rfl
  | case2 =>
    exact absurd h.1 (by decide)
  | case3 a h1 h2 =>
    have : (view [a]).lacks = true := by simp [view, h1, h2]
    rw [h.2] at this
    cases this
  | case4 a h1 h2 h3 =>
    have e : view [a] = View.opt (a.takeWhile (· ≠ '=')) ((a.dropWhile (· ≠ '=')).drop 1) {} := by
      rw [view, if_neg h1, if_neg h2, if_pos h3]
    rw [e, View.opt_append, View.nil_append]
    cases ys with
    | nil => rw [List.append_nil, e]; rfl
    | cons b rest =>
      rw [List.cons_append, List.nil_append, view, if_neg h1, if_neg h2, if_pos h3]
  | case5 a h1 h2 h3 =>
    have e : view [a] = View.other a {} := by
      rw [view, if_neg h1, if_neg h2, if_neg h3]
    rw [e, View.other_append, View.nil_append]
    cases ys with
    | nil => rw [List.append_nil, e]; rfl
    | cons b rest =>
      rw [List.cons_append, List.nil_append, view, if_neg h1, if_neg h2, if_neg h3]
  | case6 b rest =>
    have := h.1
    simp [view] at this
  | case7 a b rest h1 h2 ih =>
    have e : view (a :: b :: rest) = View.opt a b (view rest) := by rw [view, if_neg h1, if_pos h2]
    have hc : Closed rest := by
      unfold Closed at h ⊢
      rw [e] at h
      exact h
    rw [e, View.opt_append, ← ih hc, List.cons_append, List.cons_append, view, if_neg h1, if_pos h2]
  | case8 a b rest h1 h2 h3 ih =>
    have e : view (a :: b :: rest) = View.opt (a.takeWhile (· ≠ '=')) ((a.dropWhile (· ≠ '=')).drop 1) (view (b :: rest)) := by
      rw [view, if_neg h1, if_neg h2, if_pos h3]
    have hc : Closed (b :: rest) := by
      unfold Closed at h ⊢
      rw [e] at h
      exact h
    rw [e, View.opt_append, ← ih hc, List.cons_append, List.cons_append, view, if_neg h1, if_neg h2, if_pos h3]
  | case9 a b rest h1 h2 h3 ih =>
    have e : view (a :: b :: rest) = View.other a (view (b :: rest)) := by
      rw [view, if_neg h1, if_neg h2, if_neg h3]
    have hc : Closed (b :: rest) := by
      unfold Closed at h ⊢
      rw [e] at h
      exact h
    rw [e, View.other_append, ← ih hc, List.cons_append, List.cons_append, view, if_neg h1, if_neg h2, if_neg h3]

theorem closed_append {xs ys : List Str} (hx : Closed xs) (hy : Closed ys) : Closed (xs ++ ys) := by
  unfold Closed
  rw [view_append _ _ hx]
  exact hy

theorem values_append (a b : View) (o : Str) : (a.append b).values o = a.values o ++ b.values o := by
  simp [View.values, View.append]

/-! ## The parts of the command -/

theorem view_opt {o : Str} (h : o ∈ valueOpts) (h2 : o ≠ str! "--") (v : Str) : view [o, v] = View.opt o v {} := by
  rw [view, if_neg h2, if_pos h]
  rfl

theorem view_packages (ps : List Str) :
    view (ps.flatMap (fun p => [str! "-p", p])) = { opts := ps.map (fun p => (str! "-p", p)) } := by
  induction ps with
  | nil => rfl
  | cons p ps ih =>
    rw [List.flatMap_cons, List.cons_append, List.cons_append, view, if_neg (by decide), if_pos (by decide), List.nil_append, ih]
    rfl

/-- The arguments before those of the user. -/
def start (base : Str) (args : Args) : List Str :=
  (if args.colour then [str! "--color=always"] else []) ++ [subcommand base args] ++ settings

/-- The settings. -/
def startSettings : List (Str × Str) :=
  [(str! "--config", str! "profile.cackle.inherits=\"dev\""), (str! "--config", str! "profile.cackle.opt-level=0"),
   (str! "--config", str! "profile.cackle.debug=true"), (str! "--config", str! "profile.cackle.incremental=false"),
   (str! "--config", str! "split-debuginfo=\"off\"")]

theorem view_start {base : Str} (hb : base = str! "build" ∨ base = str! "clean") (args : Args) :
    view (start base args) =
      { opts := (if args.colour then [(str! "--color", str! "always")] else []) ++ startSettings
        others := [subcommand base args] } := by
  have hs : subcommand base args = str! "build" ∨ subcommand base args = str! "clean" ∨ subcommand base args = str! "test" ∨
      subcommand base args = str! "run" := by
    unfold subcommand
    split
    · simp
    · simp
    · rcases hb with rfl | rfl <;> simp
  unfold start
  cases args.colour <;> rcases hs with h | h | h | h <;> rw [h] <;> decide +kernel

theorem closed_start {base : Str} (hb : base = str! "build" ∨ base = str! "clean") (args : Args) :
    Closed (start base args) := by
  unfold Closed
  rw [view_start hb]
  exact ⟨rfl, rfl⟩

/-- The argument for the target. -/
def targetArgs (args : Args) : List Str :=
  match args.target with
  | some t => [str! "--target", t]
  | none => []

/-- The argument for the features. -/
def featureArgs (args : Args) (config : Common) : List Str :=
  if features args config ≠ [] then [str! "--features", features args config] else []

theorem buildCommand_args (dir targetDir : Str) (args : Args) (config : Common) (su : Setup) (menv : AMap Str Str) :
    (buildCommand dir targetDir args config su menv).args =
      start (str! "build") args ++ ([str! "--profile", profileName args config] ++ (extraArgs args ++
        (args.package.flatMap (fun p => [str! "-p", p]) ++ (flags args config ++ (targetArgs args ++
          featureArgs args config))))) := by
  simp only [buildCommand, command, start, targetArgs, featureArgs, List.append_assoc]
  rfl

theorem cleanCommand_args (dir targetDir : Str) (args : Args) (config : Common) (menv : AMap Str Str) :
    (cleanCommand dir targetDir args config menv).args =
      start (str! "clean") args ++ ([str! "--profile", profileName args config] ++ extraArgs args) := by
  simp only [cleanCommand, command, start, List.append_assoc]

theorem view_target (args : Args) : view (targetArgs args) = { opts := args.target.toList.map (fun t => (str! "--target", t)) } := by
  unfold targetArgs
  cases args.target with
  | none => rfl
  | some t => exact view_opt (by decide) (by decide) t

theorem view_features (args : Args) (config : Common) :
    view (featureArgs args config) =
      { opts := if features args config ≠ [] then [(str! "--features", features args config)] else [] } := by
  unfold featureArgs
  split
  · exact view_opt (by decide) (by decide) _
  · rfl

/-- What cargo sees of the build command. -/
theorem view_build (dir targetDir : Str) (args : Args) (config : Common) (su : Setup) (menv : AMap Str Str)
    (he : Closed (extraArgs args)) (hf : Closed (flags args config)) :
    view (buildCommand dir targetDir args config su menv).args =
      (view (start (str! "build") args)).append ((View.opt (str! "--profile") (profileName args config) {}).append
        ((view (extraArgs args)).append (View.append { opts := args.package.map (fun p => (str! "-p", p)) }
          ((view (flags args config)).append (View.append { opts := args.target.toList.map (fun t => (str! "--target", t)) }
            { opts := if features args config ≠ [] then [(str! "--features", features args config)] else [] }))))) := by
  have hp : view [str! "--profile", profileName args config] = View.opt (str! "--profile") (profileName args config) {} :=
    view_opt (by decide) (by decide) _
  have hpc : Closed [str! "--profile", profileName args config] := by unfold Closed; rw [hp]; exact ⟨rfl, rfl⟩
  have hpk : Closed (args.package.flatMap (fun p => [str! "-p", p])) := by unfold Closed; rw [view_packages]; exact ⟨rfl, rfl⟩
  have ht : Closed (targetArgs args) := by unfold Closed; rw [view_target]; exact ⟨rfl, rfl⟩
  rw [buildCommand_args, view_append _ _ (closed_start (Or.inl rfl) args), view_append _ _ hpc, hp, view_append _ _ he,
    view_append _ _ hpk, view_packages, view_append _ _ hf, view_append _ _ ht, view_target, view_features]

theorem start_values {o : Str} (ho : o ≠ str! "--config" ∧ o ≠ str! "--color") {base : Str}
    (hb : base = str! "build" ∨ base = str! "clean") (args : Args) : (view (start base args)).values o = [] := by
  rw [view_start hb]
  unfold View.values startSettings
  have h1 : ¬ str! "--config" = o := fun h => ho.1 h.symm
  have h2 : ¬ str! "--color" = o := fun h => ho.2 h.symm
  cases args.colour <;> simp [h1, h2]

theorem start_config {base : Str} (hb : base = str! "build" ∨ base = str! "clean") (args : Args) :
    (view (start base args)).values (str! "--config") = startSettings.map (·.2) := by
  rw [view_start hb]
  cases args.colour <;> rfl

/-! ## Features -/

theorem features_join {fs : List Str} (h : ∀ f ∈ fs, FeatureName f) : featureNames (joinWith (str! ",") fs) = fs := by
  unfold featureNames
  cases fs with
  | nil => rfl
  | cons f fs =>
    rw [Basic.splitChar_join _ (by simp) (fun p hp => (h p hp).2), List.filter_eq_self.mpr]
    intro p hp
    simpa using (h p hp).1

theorem profile_wanted {args : Args} {config : Common} {p : Str} (h : WantsProfile args config p) : profileName args config = p := by
  unfold profileName
  rcases h with h | ⟨h1, h2⟩ | ⟨h1, h2, rfl⟩
  · rw [h]; rfl
  · rw [h1, h2]; rfl
  · rw [h1, h2]; rfl

end Cackle.Cargo
