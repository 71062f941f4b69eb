import Verif.Spec.Closure
/-!
# Simulation between inlined and not inlined evaluation

`f` maps the cells of the evaluation that does not inline to those of the one that does.  Variables of blocks inlined in
loops are not in `f`: nothing else can reach them.
-/
set_option autoImplicit false
namespace PySOM.Clo

abbrev Map := Nat → Option Nat

def Le (f g : Map) : Prop := ∀ l l', f l = some l' → g l = some l'

theorem Le.refl (f : Map) : Le f f := fun _ _ h => h
theorem Le.trans {f g h : Map} (a : Le f g) (b : Le g h) : Le f h := fun _ _ x => b _ _ (a _ _ x)

/-- Pointwise related lists. -/
inductive All2 {α β : Type} (R : α → β → Prop) : List α → List β → Prop
  | nil : All2 R [] []
  | cons {a : α} {b : β} {as : List α} {bs : List β} : R a b → All2 R as bs → All2 R (a :: as) (b :: bs)

section
variable {α β : Type} {R S : α → β → Prop}

theorem All2.length {as : List α} {bs : List β} (h : All2 R as bs) : as.length = bs.length := by
  induction h with
  | nil => rfl
  | cons _ _ ih => simp [ih]

theorem All2.mono {as : List α} {bs : List β} (hm : ∀ a b, R a b → S a b) (h : All2 R as bs) : All2 S as bs := by
  induction h with
  | nil => exact .nil
  | cons h _ ih => exact .cons (hm _ _ h) ih

theorem All2.get {as : List α} {bs : List β} (h : All2 R as bs) (i : Nat) (a : α) (ha : as[i]? = some a) :
    ∃ b, bs[i]? = some b ∧ R a b := by
  induction h generalizing i with
  | nil => simp at ha
  | cons h _ ih =>
    cases i with
    | zero => simp only [List.getElem?_cons_zero, Option.some.injEq] at ha ⊢; subst ha; exact ⟨_, rfl, h⟩
    | succ i => simp only [List.getElem?_cons_succ] at ha ⊢; exact ih i ha

theorem All2.set {as : List α} {bs : List β} (h : All2 R as bs) (i : Nat) {a : α} {b : β} (hab : R a b) :
    All2 R (as.set i a) (bs.set i b) := by
  induction h generalizing i with
  | nil => exact .nil
  | cons h t ih =>
    cases i with
    | zero => exact .cons hab t
    | succ i => exact .cons h (ih i)

theorem All2.append {as as2 : List α} {bs bs2 : List β} (h : All2 R as bs) (h2 : All2 R as2 bs2) :
    All2 R (as ++ as2) (bs ++ bs2) := by
  induction h with
  | nil => exact h2
  | cons h _ ih => exact .cons h ih

theorem All2.replicate {a : α} {b : β} (n : Nat) (h : R a b) : All2 R (List.replicate n a) (List.replicate n b) := by
  induction n with
  | zero => exact .nil
  | succ n ih => exact .cons h ih

theorem All2.map_eq {γ : Type} {as : List α} {bs : List β} (F : α → γ) (G : β → γ) (hm : ∀ a b, R a b → F a = G b) (h : All2 R as bs) :
    as.map F = bs.map G := by
  induction h with
  | nil => rfl
  | cons h _ ih => simp [hm _ _ h, ih]
end

def EnvRel (f : Map) (sc : List Var) (env env' : Var → Option Nat) : Prop :=
  ∀ x ∈ sc, ∃ l l', env x = some l ∧ env' x = some l' ∧ f l = some l'

inductive VRel (f : Map) : Value → Value → Prop
  | atom (a : Atom) : VRel f (.atom a) (.atom a)
  | obj (a : Nat) : VRel f (.obj a) (.obj a)
  | clo {as ls : List Var} {b : Ex} {env env' : Var → Option Nat} {self self' : Value} {home : Nat} (sc : List Var)
      (fine : (Ex.blk as ls b).fine false sc [] []) (henv : EnvRel f sc env env') (hself : VRel f self self') :
      VRel f (.clo as ls b env self home) (.clo as ls b env' self' home)

theorem EnvRel.mono {f g : Map} (h : Le f g) {sc : List Var} {env env' : Var → Option Nat} (r : EnvRel f sc env env') : EnvRel g sc env env' :=
  fun x hx => let ⟨l, l', h1, h2, h3⟩ := r x hx; ⟨l, l', h1, h2, h _ _ h3⟩

theorem VRel.mono {f g : Map} (h : Le f g) {v v' : Value} (r : VRel f v v') : VRel g v v' := by
  induction r with
  | atom a => exact .atom a
  | obj a => exact .obj a
  | clo sc fine henv _ ih => exact .clo sc fine (henv.mono h) ih

theorem VRel.shown {f : Map} {v v' : Value} (r : VRel f v v') : v.shown = v'.shown := by
  cases r <;> rfl

theorem VRel.atom? {f : Map} {v v' : Value} (r : VRel f v v') : v.atom? = v'.atom? := by
  cases r <;> rfl

def ORel (f : Map) (o o' : Nat × List Value) : Prop := o.1 = o'.1 ∧ All2 (VRel f) o.2 o'.2

structure StRel (f : Map) (st st' : State) : Prop where
  cell : ∀ l l', f l = some l' → ∃ v v', st.cells[l]? = some v ∧ st'.cells[l']? = some v' ∧ VRel f v v'
  inj : ∀ k l l', f k = some l' → f l = some l' → k = l
  objs : All2 (ORel f) st.objs st'.objs
  log : st.log = st'.log
  act : st.act = st'.act

inductive ORes (f : Map) : Out → Out → Prop
  | val {v v' : Value} : VRel f v v' → ORes f (.val v) (.val v')
  | ret {v v' : Value} (h : Nat) : VRel f v v' → ORes f (.ret h v) (.ret h v')
  | err (e : Err) : ORes f (.err e) (.err e)
  | timeout : ORes f .timeout .timeout

theorem ORes.mono {f g : Map} (h : Le f g) {o o' : Out} (r : ORes f o o') : ORes g o o' := by
  cases r with
  | val r => exact .val (r.mono h)
  | ret k r => exact .ret k (r.mono h)
  | err e => exact .err e
  | timeout => exact .timeout

/-- What evaluation leaves alone: cells outside `f`, except those in `T` and `T'`; and only those in `H` come into `f`. -/
structure Post (f : Map) (st st' : State) (T T' H : Nat → Prop) (f2 : Map) (s s' : State) : Prop where
  rel : StRel f2 s s'
  ext : Le f f2
  szp : st.cells.length ≤ s.cells.length
  szi : st'.cells.length ≤ s'.cells.length
  newp : ∀ l, l < st.cells.length → f l = none → f2 l = none
  frp : ∀ l, l < st.cells.length → f l = none → ¬ T l → s.cells[l]? = st.cells[l]?
  newi : ∀ l', l' < st'.cells.length → (∀ k, f k ≠ some l') → ¬ H l' → ∀ k, f2 k ≠ some l'
  fri : ∀ l', l' < st'.cells.length → (∀ k, f k ≠ some l') → ¬ T' l' → ¬ H l' → s'.cells[l']? = st'.cells[l']?

theorem Post.refl {f : Map} {st st' : State} {T T' H : Nat → Prop} (h : StRel f st st') : Post f st st' T T' H f st st' :=
  ⟨h, Le.refl f, Nat.le_refl _, Nat.le_refl _, fun _ _ h => h, fun _ _ _ _ => rfl, fun _ _ h _ => h, fun _ _ _ _ _ => rfl⟩

theorem Post.weaken {f f2 : Map} {st st' s s' : State} {T T' H T2 T2' H2 : Nat → Prop} (p : Post f st st' T T' H f2 s s')
    (h1 : ∀ l, T l → T2 l) (h2 : ∀ l, T' l → T2' l ∨ H2 l) (h3 : ∀ l, H l → H2 l) : Post f st st' T2 T2' H2 f2 s s' :=
  ⟨p.rel, p.ext, p.szp, p.szi, p.newp, fun l a b c => p.frp l a b (fun x => c (h1 l x)),
    fun l a b c => p.newi l a b (fun x => c (h3 l x)),
    fun l a b c d => p.fri l a b (fun x => (h2 l x).elim c d) (fun x => d (h3 l x))⟩

theorem Post.trans {f f1 f2 : Map} {st st' s s' u u' : State} {T T' H : Nat → Prop} (p : Post f st st' T T' H f1 s s')
    (q : Post f1 s s' T T' H f2 u u') : Post f st st' T T' H f2 u u' :=
  ⟨q.rel, p.ext.trans q.ext, Nat.le_trans p.szp q.szp, Nat.le_trans p.szi q.szi,
    fun l a b => q.newp l (Nat.lt_of_lt_of_le a p.szp) (p.newp l a b),
    fun l a b c => (q.frp l (Nat.lt_of_lt_of_le a p.szp) (p.newp l a b) c).trans (p.frp l a b c),
    fun l a b c => q.newi l (Nat.lt_of_lt_of_le a p.szi) (p.newi l a b c) c,
    fun l a b c d => (q.fri l (Nat.lt_of_lt_of_le a p.szi) (p.newi l a b d) c d).trans (p.fri l a b c d)⟩

/-- Related results. -/
def SimR (f : Map) (st st' : State) (T T' H : Nat → Prop) (K : Map → State → State → Prop) (r r' : Res) : Prop :=
  ∃ f2, Post f st st' T T' H f2 r.2 r'.2 ∧ ORes f2 r.1 r'.1 ∧ ((∃ v, r.1 = .val v) → K f2 r.2 r'.2)

theorem SimR.val {f : Map} {st st' : State} {T T' H : Nat → Prop} {K : Map → State → State → Prop} {v v' : Value} (h : StRel f st st')
    (hv : VRel f v v') (hk : K f st st') : SimR f st st' T T' H K (.val v, st) (.val v', st') :=
  ⟨f, Post.refl h, .val hv, fun _ => hk⟩

theorem SimR.err {f : Map} {st st' : State} {T T' H : Nat → Prop} {K : Map → State → State → Prop} (e : Err) (h : StRel f st st') :
    SimR f st st' T T' H K (.err e, st) (.err e, st') :=
  ⟨f, Post.refl h, .err e, fun ⟨_, h⟩ => by cases h⟩

theorem SimR.conseq {f : Map} {st st' : State} {T T' H T2 T2' H2 : Nat → Prop} {K K2 : Map → State → State → Prop} {r r' : Res}
    (p : SimR f st st' T T' H K r r') (h1 : ∀ l, T l → T2 l) (h2 : ∀ l, T' l → T2' l ∨ H2 l) (h3 : ∀ l, H l → H2 l)
    (hk : ∀ f2 s s', Post f st st' T T' H f2 s s' → K f2 s s' → K2 f2 s s') : SimR f st st' T2 T2' H2 K2 r r' := by
  obtain ⟨f2, hp, ho, hK⟩ := p
  exact ⟨f2, hp.weaken h1 h2 h3, ho, fun hv => hk _ _ _ hp (hK hv)⟩

theorem SimR.andThen {f : Map} {st st' : State} {T T' H : Nat → Prop} {K K2 : Map → State → State → Prop} {r r' : Res}
    {k k' : Value → State → Res} (p : SimR f st st' T T' H K r r')
    (hk : ∀ f1 s s' v v', Post f st st' T T' H f1 s s' → K f1 s s' → VRel f1 v v' → SimR f1 s s' T T' H K2 (k v s) (k' v' s')) :
    SimR f st st' T T' H K2 (andThen r k) (andThen r' k') := by
  obtain ⟨f1, hp, ho, hK⟩ := p
  obtain ⟨o, s⟩ := r
  obtain ⟨o', s'⟩ := r'
  simp only at hp ho hK
  cases ho with
  | val hv =>
    obtain ⟨f2, hp2, ho2, hK2⟩ := hk f1 s s' _ _ hp (hK ⟨_, rfl⟩) hv
    exact ⟨f2, hp.trans hp2, ho2, hK2⟩
  | ret h hv => exact ⟨f1, hp, .ret h hv, fun ⟨_, h⟩ => by cases h⟩
  | err e => exact ⟨f1, hp, .err e, fun ⟨_, h⟩ => by cases h⟩
  | timeout => exact ⟨f1, hp, .timeout, fun ⟨_, h⟩ => by cases h⟩

/-! ## Variables -/

theorem bindVars_not (xs : List Var) : ∀ (env : Var → Option Nat) (n : Nat) (x : Var), x ∉ xs → bindVars env xs n x = env x := by
  induction xs with
  | nil => intro env n x _; rfl
  | cons y ys ih =>
    intro env n x h
    simp only [List.mem_cons, not_or] at h
    simp only [bindVars]
    rw [ih _ _ _ h.2]
    simp [h.1]

theorem bindVars_get (xs : List Var) : ∀ (env : Var → Option Nat) (n : Nat) (i : Nat) (x : Var), xs.Nodup → xs[i]? = some x →
    bindVars env xs n x = some (n + i) := by
  induction xs with
  | nil => intro env n i x _ h; simp at h
  | cons y ys ih =>
    intro env n i x hn h
    rw [List.nodup_cons] at hn
    simp only [bindVars]
    cases i with
    | zero =>
      simp only [List.getElem?_cons_zero, Option.some.injEq] at h
      subst h
      rw [bindVars_not _ _ _ _ hn.1]
      simp
    | succ i =>
      simp only [List.getElem?_cons_succ] at h
      rw [ih _ _ i x hn.2 h]
      congr 1
      omega

theorem mem_get {α : Type} {xs : List α} {x : α} (h : x ∈ xs) : ∃ i, i < xs.length ∧ xs[i]? = some x := by
  obtain ⟨i, hi⟩ := List.mem_iff_getElem?.1 h
  exact ⟨i, (List.getElem?_eq_some_iff.1 hi).1, hi⟩

theorem nodup_idx {α : Type} {xs : List α} (hn : xs.Nodup) {i j : Nat} {x : α} (hi : xs[i]? = some x) (hj : xs[j]? = some x) : i = j := by
  obtain ⟨h1, h1'⟩ := List.getElem?_eq_some_iff.1 hi
  obtain ⟨h2, h2'⟩ := List.getElem?_eq_some_iff.1 hj
  exact (List.getElem_inj hn).1 (h1'.trans h2'.symm)

mutual
/-- The variables of blocks inlined outside of loops. -/
def Ex.hoistS : Ex → List Var
  | .atom _ => []
  | .self => []
  | .var _ => []
  | .asg _ e => e.hoistS
  | .fld _ => []
  | .fldW _ e => e.hoistS
  | .blk _ _ _ => []
  | .new _ => []
  | .send _ _ r as => r.hoistS ++ as.hoistS
  | .inl1 _ r ls b => r.hoistS ++ (ls ++ b.hoistS)
  | .inl2 _ r ls1 b1 ls2 b2 => r.hoistS ++ ((ls1 ++ b1.hoistS) ++ (ls2 ++ b2.hoistS))
  | .while _ _ _ _ _ => []
  | .seq e1 e2 => e1.hoistS ++ e2.hoistS
  | .ret e => e.hoistS
def Exs.hoistS : Exs → List Var
  | .nil => []
  | .cons e es => e.hoistS ++ es.hoistS
end

mutual
theorem Ex.hoistS_sub (e : Ex) : ∀ x ∈ e.hoistS, x ∈ e.hoist := by
  cases e with
  | atom _ => simp [Ex.hoistS]
  | self => simp [Ex.hoistS]
  | var _ => simp [Ex.hoistS]
  | asg _ e => simpa only [Ex.hoistS, Ex.hoist] using e.hoistS_sub
  | fld _ => simp [Ex.hoistS]
  | fldW _ e => simpa only [Ex.hoistS, Ex.hoist] using e.hoistS_sub
  | blk _ _ _ => simp [Ex.hoistS]
  | new _ => simp [Ex.hoistS]
  | send _ _ r as =>
    have h1 := r.hoistS_sub; have h2 := as.hoistS_sub
    intro x hx
    simp only [Ex.hoistS, Ex.hoist, List.mem_append] at hx ⊢
    exact hx.imp (h1 x) (h2 x)
  | inl1 _ r ls b =>
    have h1 := r.hoistS_sub; have h2 := b.hoistS_sub
    intro x hx
    simp only [Ex.hoistS, Ex.hoist, List.mem_append] at hx ⊢
    exact hx.imp (h1 x) (Or.imp id (h2 x))
  | inl2 _ r ls1 b1 ls2 b2 =>
    have h1 := r.hoistS_sub; have h2 := b1.hoistS_sub; have h3 := b2.hoistS_sub
    intro x hx
    simp only [Ex.hoistS, Ex.hoist, List.mem_append] at hx ⊢
    exact hx.imp (h1 x) (Or.imp (Or.imp id (h2 x)) (Or.imp id (h3 x)))
  | «while» _ _ _ _ _ => simp [Ex.hoistS]
  | seq e1 e2 =>
    have h1 := e1.hoistS_sub; have h2 := e2.hoistS_sub
    intro x hx
    simp only [Ex.hoistS, Ex.hoist, List.mem_append] at hx ⊢
    exact hx.imp (h1 x) (h2 x)
  | ret e => simpa only [Ex.hoistS, Ex.hoist] using e.hoistS_sub
theorem Exs.hoistS_sub (es : Exs) : ∀ x ∈ es.hoistS, x ∈ es.hoist := by
  cases es with
  | nil => simp [Exs.hoistS]
  | cons e es =>
    have h1 := e.hoistS_sub; have h2 := es.hoistS_sub
    intro x hx
    simp only [Exs.hoistS, Exs.hoist, List.mem_append] at hx ⊢
    exact hx.imp (h1 x) (h2 x)
end

mutual
theorem Ex.sub_after (e : Ex) : ∀ (D : List Var), ∀ x ∈ D, x ∈ e.after D := by
  intro D x hx
  cases e with
  | asg y e => exact List.mem_cons_of_mem _ (e.sub_after D x hx)
  | fldW _ e => exact e.sub_after D x hx
  | send _ _ r as => exact as.sub_after _ x (r.sub_after D x hx)
  | inl1 _ r _ _ => exact r.sub_after D x hx
  | inl2 _ r _ _ _ _ => exact r.sub_after D x hx
  | seq e1 e2 => exact e2.sub_after _ x (e1.sub_after D x hx)
  | ret e => exact e.sub_after D x hx
  | _ => exact hx
theorem Exs.sub_after (es : Exs) : ∀ (D : List Var), ∀ x ∈ D, x ∈ es.after D := by
  intro D x hx
  cases es with
  | nil => exact hx
  | cons e es => exact es.sub_after _ x (e.sub_after D x hx)
end

/-! ## Invariants -/

def locsOf (env : Var → Option Nat) (xs : List Var) : Nat → Prop := fun l => ∃ x ∈ xs, env x = some l

/-- The variables of `tmp` that have been assigned have related values. -/
def Kd (tmp D : List Var) (env env' : Var → Option Nat) (f : Map) (s s' : State) : Prop :=
  ∀ x ∈ tmp, x ∈ D → ∀ l l', env x = some l → env' x = some l' →
    ∃ v v', s.cells[l]? = some v ∧ s'.cells[l']? = some v' ∧ VRel f v v'

structure Inv (lp : Bool) (sc tmp D hs hn : List Var) (f : Map) (ctx ctx' : Ctx) (st st' : State) : Prop where
  rel : StRel f st st'
  self : VRel f ctx.self ctx'.self
  home : ctx.home = ctx'.home
  hsc : EnvRel f sc ctx.env ctx'.env
  htmp : ∀ x ∈ tmp, ∃ l l', ctx.env x = some l ∧ ctx'.env x = some l' ∧ l < st.cells.length ∧ l' < st'.cells.length ∧
    f l = none ∧ ∀ k, f k ≠ some l'
  hd : Kd tmp D ctx.env ctx'.env f st st'
  ready : ∀ x ∈ hs, ∃ l', ctx'.env x = some l' ∧ l' < st'.cells.length ∧ ∀ k, f k ≠ some l'
  injp : ∀ x ∈ tmp, ∀ y ∈ tmp, ctx.env x = ctx.env y → x = y
  inji : ∀ x ∈ hs ++ tmp, ∀ y ∈ hs ++ tmp, ctx'.env x = ctx'.env y → x = y
  nil : lp = false → ∀ x ∈ hn, ∀ l', ctx'.env x = some l' → st'.cells[l']? = some .nil

theorem Inv.sub {lp : Bool} {sc tmp D hs hn hs2 hn2 : List Var} {f : Map} {ctx ctx' : Ctx} {st st' : State}
    (I : Inv lp sc tmp D hs hn f ctx ctx' st st') (h1 : ∀ x ∈ hs2, x ∈ hs) (h2 : ∀ x ∈ hn2, x ∈ hn) :
    Inv lp sc tmp D hs2 hn2 f ctx ctx' st st' :=
  ⟨I.rel, I.self, I.home, I.hsc, I.htmp, I.hd, fun x hx => I.ready x (h1 x hx), I.injp,
    fun x hx y hy => I.inji x (by simp only [List.mem_append] at hx ⊢; exact hx.imp (h1 x) id)
      y (by simp only [List.mem_append] at hy ⊢; exact hy.imp (h1 y) id),
    fun hl x hx => I.nil hl x (h2 x hx)⟩

theorem Inv.loop {lp : Bool} {sc tmp D hs hn : List Var} {f : Map} {ctx ctx' : Ctx} {st st' : State}
    (I : Inv lp sc tmp D hs hn f ctx ctx' st st') (hn2 : List Var) : Inv true sc tmp D hs hn2 f ctx ctx' st st' :=
  ⟨I.rel, I.self, I.home, I.hsc, I.htmp, I.hd, I.ready, I.injp, I.inji, fun h => by cases h⟩

/-- The invariant for what follows. -/
theorem Inv.next {lp : Bool} {sc tmp D D1 hs hn hs1 hn1 hs2 hn2 : List Var} {f f1 : Map} {ctx ctx' : Ctx} {st st' s s' : State}
    (I : Inv lp sc tmp D hs hn f ctx ctx' st st')
    (a1 : ∀ x ∈ hs1, x ∈ hs) (a2 : ∀ x ∈ hn1, x ∈ hs1) (a3 : ∀ x ∈ hs2, x ∈ hs) (a4 : ∀ x ∈ hn2, x ∈ hn) (a5 : ∀ x ∈ hn2, x ∈ hs2)
    (a6 : ∀ x ∈ hs1, x ∉ hs2 ∨ lp = true ∧ x ∉ hn2 ∨ hn1 = [] ∧ x ∉ hn2) (a7 : ∀ x ∈ hs, x ∉ tmp)
    (p : Post f st st' (locsOf ctx.env tmp) (locsOf ctx'.env (hs1 ++ tmp)) (fun l => lp = false ∧ locsOf ctx'.env hn1 l) f1 s s')
    (hk : Kd tmp D1 ctx.env ctx'.env f1 s s') : Inv lp sc tmp D1 hs2 hn2 f1 ctx ctx' s s' := by
  have notH : ∀ x, x ∈ hs2 ++ tmp → ∀ l', ctx'.env x = some l' → ¬ (lp = false ∧ locsOf ctx'.env hn1 l') := by
    rintro x hx l' hl ⟨hlp, y, hy, hyl⟩
    have hyx : y = x := I.inji y (List.mem_append_left _ (a1 y (a2 y hy))) x
      (by simp only [List.mem_append] at hx ⊢; exact hx.imp (a3 x) id) (hyl.trans hl.symm)
    subst hyx
    have hy1 := a2 y hy
    rcases List.mem_append.1 hx with hx | hx
    · rcases a6 y hy1 with h | ⟨h, _⟩ | ⟨h, _⟩
      · exact h hx
      · rw [hlp] at h; cases h
      · rw [h] at hy; cases hy
    · exact a7 y (a1 y hy1) hx
  refine ⟨p.rel, I.self.mono p.ext, I.home, I.hsc.mono p.ext, ?_, hk, ?_, I.injp, ?_, ?_⟩
  · intro x hx
    obtain ⟨l, l', h1, h2, h3, h4, h5, h6⟩ := I.htmp x hx
    exact ⟨l, l', h1, h2, Nat.lt_of_lt_of_le h3 p.szp, Nat.lt_of_lt_of_le h4 p.szi, p.newp l h3 h5,
      p.newi l' h4 h6 (notH x (List.mem_append_right _ hx) l' h2)⟩
  · intro x hx
    obtain ⟨l', h1, h2, h3⟩ := I.ready x (a3 x hx)
    exact ⟨l', h1, Nat.lt_of_lt_of_le h2 p.szi, p.newi l' h2 h3 (notH x (List.mem_append_left _ hx) l' h1)⟩
  · intro x hx y hy
    exact I.inji x (by simp only [List.mem_append] at hx ⊢; exact hx.imp (a3 x) id)
      y (by simp only [List.mem_append] at hy ⊢; exact hy.imp (a3 y) id)
  · intro hlp x hx l' hl
    obtain ⟨l2, h1, h2, h3⟩ := I.ready x (a3 x (a5 x hx))
    rw [hl] at h1
    cases h1
    rw [p.fri l' h2 h3 ?_ (notH x (List.mem_append_left _ (a5 x hx)) l' hl)]
    · exact I.nil hlp x (a4 x hx) l' hl
    · rintro ⟨y, hy, hyl⟩
      have hyx : y = x := I.inji y (by simp only [List.mem_append] at hy ⊢; exact hy.imp (a1 y) id) x
        (List.mem_append_left _ (a3 x (a5 x hx))) (hyl.trans hl.symm)
      subst hyx
      rcases List.mem_append.1 hy with hy | hy
      · rcases a6 y hy with h | ⟨h, h'⟩ | ⟨h, h'⟩
        · exact h (a5 y hx)
        · exact h' hx
        · exact h' hx
      · exact a7 y (a3 y (a5 y hx)) hy

/-- Evaluation of a message does not touch the variables of `tmp`. -/
theorem Kd.frame {tmp D : List Var} {env env' : Var → Option Nat} {f f2 : Map} {st st' s s' : State} {T T' H : Nat → Prop}
    (h : ∀ x ∈ tmp, ∃ l l', env x = some l ∧ env' x = some l' ∧ l < st.cells.length ∧ l' < st'.cells.length ∧ f l = none ∧ ∀ k, f k ≠ some l')
    (hd : Kd tmp D env env' f st st') (p : Post f st st' T T' H f2 s s') (hT : ∀ l, ¬ T l) (hT' : ∀ l, ¬ T' l) (hH : ∀ l, ¬ H l) :
    Kd tmp D env env' f2 s s' := by
  intro x hx hD l l' hl hl'
  obtain ⟨k, k', h1, h2, h3, h4, h5, h6⟩ := h x hx
  rw [hl] at h1; cases h1
  rw [hl'] at h2; cases h2
  obtain ⟨v, v', e1, e2, e3⟩ := hd x hx hD l l' hl hl'
  exact ⟨v, v', (p.frp l h3 h5 (hT l)).trans e1, (p.fri l' h4 h6 (hT' l') (hH l')).trans e2, e3.mono p.ext⟩

/-- The statement proved by induction on the number of levels. -/
def SimEv (ev ev' : Ev) : Prop :=
  ∀ (lp : Bool) (sc tmp D : List Var) (e : Ex) (f : Map) (live : List Nat) (ctx ctx' : Ctx) (st st' : State),
    e.fine lp sc tmp D → e.hoist.Nodup → (∀ x ∈ e.hoist, x ∉ sc ∧ x ∉ tmp) →
    Inv lp sc tmp D e.hoist e.hoistS f ctx ctx' st st' →
    SimR f st st' (locsOf ctx.env tmp) (locsOf ctx'.env (e.hoist ++ tmp)) (fun l => lp = false ∧ locsOf ctx'.env e.hoistS l)
      (Kd tmp (e.after D) ctx.env ctx'.env) (ev live ctx e st) (ev' live ctx' e st')

end PySOM.Clo
