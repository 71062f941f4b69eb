import Verif.Lemmas.UniverseOrder
/-!
# Room for the fields of the side of the class
-/
set_option autoImplicit false
namespace PySOM.Boot

/-- From one state to a later one: classes keep their class and their layout, those that are not of the VM also their fields, and new classes have room for the fields of their classes. -/
structure Safe (u u' : U) : Prop where
  len : u.classes.length ≤ u'.classes.length
  old : ∀ c : Nat, c < u.classes.length → (u'.at c).cls = (u.at c).cls ∧ (u'.at c).size = (u.at c).size ∧ (22 ≤ c → (u'.at c).fields = (u.at c).fields)
  new : ∀ c : Nat, u.classes.length ≤ c → c < u'.classes.length → (u'.at c).cls = some 1 ∨ ∃ m : Nat, (u'.at c).cls = some m ∧ 22 ≤ m ∧ m < u'.classes.length ∧ (u'.at c).size = u'.width m

/-- The classes of the VM are there, with their classes. -/
structure Base (u : U) : Prop where
  len : 22 ≤ u.classes.length
  cls : ∀ c : Nat, c < 22 → ∀ m : Nat, (u.at c).cls = some m → m < 22

theorem Safe.refl (u : U) : Safe u u := ⟨Nat.le_refl _, fun _ _ => ⟨rfl, rfl, fun _ => rfl⟩, fun _ h1 h2 => absurd h2 (Nat.not_lt.2 h1)⟩

theorem Safe.trans {u v w : U} (h : Safe u v) (h' : Safe v w) : Safe u w := by
  refine ⟨Nat.le_trans h.len h'.len, fun c hc => ?_, fun c h1 h2 => ?_⟩
  · obtain ⟨a1, a2, a3⟩ := h.old c hc
    obtain ⟨b1, b2, b3⟩ := h'.old c (Nat.lt_of_lt_of_le hc h.len)
    exact ⟨b1.trans a1, b2.trans a2, fun h => (b3 h).trans (a3 h)⟩
  · by_cases hc : c < v.classes.length
    · obtain ⟨b1, b2, _⟩ := h'.old c hc
      rcases h.new c h1 hc with a | ⟨m, a1, a2, a3, a4⟩
      · exact .inl (b1.trans a)
      · refine .inr ⟨m, b1.trans a1, a2, Nat.lt_of_lt_of_le a3 h'.len, ?_⟩
        rw [b2, a4]
        unfold U.width
        rw [(h'.old m a3).2.2 a2]
    · exact h'.new c (Nat.not_lt.1 hc) h2

theorem Base.safe {u u' : U} (h : Base u) (hs : Safe u u') : Base u' :=
  ⟨Nat.le_trans h.len hs.len, fun c hc m hm => h.cls c hc m (((hs.old c (Nat.lt_of_lt_of_le hc h.len)).1).symm.trans hm)⟩

theorem Safe.bind {α β : Type} {m : M α} {k : α → M β} {u : U} (h : Safe u (m u).2) (h' : ∀ a u', m u = (.ok a, u') → Safe u u' → Safe u' (k a u').2) : Safe u ((m >>= k) u).2 := by
  rw [bind_run]
  rcases hm : m u with ⟨r, u'⟩
  rw [hm] at h
  cases r with
  | error e => exact h
  | ok a => exact h.trans (h' a u' hm h)

/-- In states with the classes of the VM. -/
def Safely {α : Type} (m : M α) : Prop := ∀ u, Base u → Safe u (m u).2

theorem Safely.bind {α β : Type} {m : M α} {k : α → M β} (h : Safely m) (h' : ∀ a, Safely (k a)) : Safely (m >>= k) := fun u hu => Safe.bind (h u hu) fun a u' _ hs => h' a u' (hu.safe hs)

theorem Safely.pure {α : Type} (a : α) : Safely (Pure.pure a : M α) := fun u _ => .refl u
theorem Safely.raise {α : Type} (e : Err) : Safely (raise e : M α) := fun u _ => .refl u
theorem Safely.get : Safely get := fun u _ => .refl u

theorem Safe.upd (u : U) (c : Nat) (f : Cls → Cls) (h1 : ∀ x, (f x).cls = x.cls) (h2 : ∀ x, (f x).size = x.size) (h3 : c < 22 ∨ ∀ x, (f x).fields = x.fields) : Safe u (u.upd c f) := by
  have hl : (u.upd c f).classes.length = u.classes.length := by unfold U.upd; simp
  refine ⟨by rw [hl]; exact Nat.le_refl _, fun d hd => ?_, fun d hd hd' => absurd (hl ▸ hd') (Nat.not_lt.2 hd)⟩
  by_cases he : c = d
  · subst he
    have : (u.upd c f).at c = f (u.at c) := by unfold U.upd U.at; simp [List.getD, List.getElem?_modify, hd]
    rw [this]
    exact ⟨h1 _, h2 _, fun h => h3.elim (fun h' => absurd h' (Nat.not_lt.2 h)) fun h' => h' _⟩
  · have : (u.upd c f).at d = u.at d := by unfold U.upd U.at; simp [List.getD, List.getElem?_modify, he]
    rw [this]
    exact ⟨rfl, rfl, fun _ => rfl⟩

theorem Safely.setFields (c : Nat) (hc : c < 22) (fs : List Name) : Safely (setFields c fs) := fun u _ => Safe.upd u c _ (fun _ => rfl) (fun _ => rfl) (.inl hc)

theorem Safely.addPrimitive (c : Cid) (sel : Name) : Safely (addPrimitive c sel) := fun u _ => Safe.upd u c _ (fun _ => rfl) (fun _ => rfl) (.inr fun _ => rfl)

theorem Safely.setInvokables (c : Cid) (v : List (Name × Kind)) (p : Bool) : Safely (setInvokables c v p) := by
  unfold Boot.setInvokables
  refine Safely.bind (fun u _ => Safe.upd u c _ (fun _ => rfl) (fun _ => rfl) (.inr fun _ => rfl)) fun _ => ?_
  split
  · refine Safely.get.bind fun u => ?_
    split
    · exact .pure _
    · exact .raise _
  · exact fun u _ => Safe.upd u c _ (fun _ => rfl) (fun _ => rfl) (.inr fun _ => rfl)

theorem Safely.classOf (c : Cid) : Safely (classOf c) := by
  unfold Boot.classOf
  refine Safely.get.bind fun u => ?_
  split
  · exact .pure _
  · exact .raise _

theorem Safely.fieldsOf (c : Cid) : Safely (fieldsOf c) := by
  unfold Boot.fieldsOf
  refine Safely.get.bind fun u => ?_
  split
  · exact .pure _
  · exact .raise _

theorem Safely.setGlobal (n : Name) (v : Glob) : Safely (setGlobal n v) := fun _ _ => ⟨Nat.le_refl _, fun _ _ => ⟨rfl, rfl, fun _ => rfl⟩, fun _ h1 h2 => absurd h2 (Nat.not_lt.2 h1)⟩

theorem Safely.getGlobal (n : Name) : Safely (getGlobal n) := Safely.get.bind fun _ => .pure _

theorem Safely.forAll {α : Type} {f : α → M Unit} : ∀ (xs : List α), (∀ x ∈ xs, Safely (f x)) → Safely (forAll f xs)
  | [], _ => .pure _
  | x :: xs, h => (h x List.mem_cons_self).bind fun _ => Safely.forAll xs fun y hy => h y (List.mem_cons_of_mem _ hy)

theorem Safely.loadPrims (known : Name → Option (List Name × List Name)) (c : Cid) : Safely (loadPrims known c) := by
  unfold Boot.loadPrims
  refine Safely.get.bind fun u => ?_
  split
  · exact .raise _
  · split
    · exact .pure _
    · exact (Safely.forAll _ fun _ _ => .addPrimitive _ _).bind fun _ => Safely.forAll _ fun _ _ => (Safely.classOf _).bind fun _ => .addPrimitive _ _

theorem Safely.classdef {load : Name → M Glob} (hl : ∀ n, Safely (load n)) (t : Text) : Safely (classdef load t) := by
  unfold Boot.classdef
  split
  · exact .raise _
  · refine Safely.bind ?_ fun a => ?_
    · split
      · exact .pure _
      · refine (hl _).bind fun v => ?_
        cases v with
        | none => exact .raise _
        | obj o => exact .raise _
        | cls s => exact (Safely.fieldsOf _).bind fun _ => (Safely.classOf _).bind fun _ => (Safely.fieldsOf _).bind fun _ => .pure _
    · obtain ⟨s, fs, cfs⟩ := a
      dsimp only
      split
      · exact .raise _
      · exact .pure _

theorem Safe.one (u : U) (x : Cls) (hx : x.cls = some 1) : Safe u ⟨u.classes ++ [x], u.globals⟩ := by
  refine ⟨by simp, fun c hc => by rw [U.at_app u _ u.globals c hc]; exact ⟨rfl, rfl, fun _ => rfl⟩, fun c h1 h2 => .inl ?_⟩
  have : c = u.classes.length := by simp at h2; exact Nat.le_antisymm (Nat.le_of_lt_succ h2) h1
  subst this
  rw [at_last]
  exact hx

theorem Safely.assemble (g : Cgc) : Safely (assemble 1 g) := fun u hu => by
  rw [assemble_eq]
  unfold assembled
  split
  · exact .refl _
  · dsimp only
    split
    · exact .one _ _ rfl
    · split
      · exact .one _ _ rfl
      · dsimp only
        refine ⟨by simp, fun c hc => by rw [U.at_app u _ u.globals c hc]; exact ⟨rfl, rfl, fun _ => rfl⟩, fun c h1 h2 => ?_⟩
        have hc : c = u.classes.length ∨ c = u.classes.length + 1 := by simp at h2; omega
        rcases hc with rfl | rfl
        · rw [at_fst]; exact .inl rfl
        · refine .inr ⟨u.classes.length, by rw [at_snd], hu.len, by simp, ?_⟩
          unfold U.width
          rw [at_snd, at_fst]
          rfl

theorem Safely.assembleSystem (c : Nat) (hc : c < 22) (g : Cgc) : Safely (assembleSystem c g) := by
  unfold Boot.assembleSystem
  refine (Safely.setInvokables _ _ _).bind fun _ => (Safely.setFields c hc _).bind fun _ => ?_
  intro u hu
  refine Safe.bind (Safely.classOf c u hu) fun m u' hm hs => ?_
  have hm' : m < 22 := by
    rw [classOf_eq] at hm
    split at hm
    · cases hm; exact hu.cls c hc _ ‹_›
    · cases hm
  exact (Safely.setInvokables m _ _).bind (fun _ => Safely.setFields m hm' _) u' (hu.safe hs)

theorem Safely.compile {load : Name → M Glob} (hl : ∀ n, Safely (load n)) (t : Text) (sys : Option Nat) (hsys : ∀ c, sys = some c → c < 22) : Safely (compile 1 load t sys) := by
  unfold Boot.compile
  refine (Safely.classdef hl t).bind fun g => ?_
  cases sys with
  | none => exact .assemble g
  | some c => exact (Safely.assembleSystem c (hsys c rfl) g).bind fun _ => .pure _

theorem Safely.exit (env : Env) (n : Nat) : Safely (exit_ env n) := by
  unfold exit_
  split
  · exact .pure _
  · exact .raise _

theorem Safely.loadFile (env : Env) {load : Name → M Glob} (hl : ∀ n, Safely (load n)) (n : Name) (sys : Option Nat) (hsys : ∀ c, sys = some c → c < 22) : ∀ ps, Safely (loadFile 1 env load n sys ps)
  | [] => .pure _
  | p :: ps => by
    unfold Boot.loadFile
    split
    · exact Safely.loadFile env hl n sys hsys ps
    · refine (Safely.compile hl _ sys hsys).bind fun c => Safely.get.bind fun u => ?_
      split
      · exact .pure _
      · exact (Safely.exit _ _).bind fun _ => .pure _

theorem Safely.loadClass (env : Env) : ∀ (k : Nat) (n : Name), Safely (loadClass 1 env k n)
  | 0, _ => .raise _
  | k + 1, n => by
    unfold Boot.loadClass
    refine (Safely.getGlobal n).bind fun v => ?_
    split
    · refine (Safely.loadFile env (Safely.loadClass env k) n none (fun _ h => nomatch h) _).bind fun r => ?_
      cases r with
      | none => exact (Safely.setGlobal _ _).bind fun _ => .pure _
      | some c =>
        refine (show Safely (needsPrims c) from Safely.get.bind fun _ => .pure _).bind fun b => ?_
        split
        · exact (Safely.loadPrims _ _).bind fun _ => (Safely.setGlobal _ _).bind fun _ => .pure _
        · exact (Safely.setGlobal _ _).bind fun _ => .pure _
    · exact .pure _

theorem Safely.loadSystem (env : Env) (k c : Nat) (hc : c < 22) : Safely (loadSystem 1 env k c) := by
  unfold Boot.loadSystem
  refine Safely.get.bind fun u => ?_
  split
  · exact .raise _
  · refine (Safely.loadFile env (Safely.loadClass env k) _ (some c) (fun _ h => by cases h; exact hc) _).bind fun r => ?_
    cases r with
    | none => exact .exit _ _
    | some c => exact .loadPrims _ _

theorem Safely.makeBlock (env : Env) (k i : Nat) : Safely (makeBlock 1 env k i) := by
  unfold Boot.makeBlock
  refine (Safely.loadFile env (Safely.loadClass env k) _ none (fun _ h => nomatch h) _).bind fun r => ?_
  cases r with
  | none => exact .raise _
  | some c => exact (Safely.addPrimitive _ _).bind fun _ => .setGlobal _ _

theorem Safely.must (v : Glob) : Safely (must v) := by
  unfold Boot.must
  split
  · exact .pure _
  · exact .raise _

theorem Safely.bootRest (env : Env) (k : Nat) : Safely (bootRest env k sys0) := by
  unfold Boot.bootRest
  refine (Safely.forAll _ fun c hc => Safely.loadSystem env k c ?_).bind fun _ => (Safely.loadClass env k _).bind fun _ => (Safely.loadClass env k _).bind fun _ => (Safely.must _).bind fun _ =>
    (Safely.loadPrims _ _).bind fun _ => (Safely.loadClass env k _).bind fun _ => (Safely.must _).bind fun _ => (Safely.loadPrims _ _).bind fun _ => (Safely.loadClass env k _).bind fun _ =>
    (Safely.must _).bind fun _ => (Safely.setGlobal _ _).bind fun _ => (Safely.setGlobal _ _).bind fun _ => (Safely.setGlobal _ _).bind fun _ => (Safely.setGlobal _ _).bind fun _ =>
    (Safely.setGlobal _ _).bind fun _ => (Safely.setGlobal _ _).bind fun _ => (Safely.setGlobal _ _).bind fun _ => (Safely.setGlobal _ _).bind fun _ => (Safely.setGlobal _ _).bind fun _ =>
    (Safely.forAll _ fun i _ => Safely.makeBlock env k i).bind fun _ => .pure _
  have : ∀ c ∈ [sys0.object, sys0.class_, sys0.meta, sys0.nil, sys0.array, sys0.method, sys0.string, sys0.symbol, sys0.integer, sys0.primitive, sys0.double], c < 22 := by decide
  exact this c hc

end PySOM.Boot
