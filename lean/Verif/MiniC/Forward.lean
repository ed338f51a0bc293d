/- A generated function that passes its parameters on to a library function: input array, its length, and any number of output arrays. -/
import Verif.MiniC.Call
namespace Emlearn.MiniC
variable {F : Type}

/-- Arrays with their argument numbers, from `k`. -/
def numbered : Nat → List (List (Option (Val F))) → List (Nat × List (Option (Val F)))
  | _, [] => []
  | k, vs :: l => (k, vs) :: numbered (k + 1) l

def outParam (x : List Char) : Param := ⟨false, "float".toList, true, x⟩

/-- The arrays of these names are in the environment. -/
def Holds (env : Env F) : List (List Char) → List (List (Option (Val F))) → Prop
  | [], [] => True
  | x :: xs, vs :: vss => env x = some (.array "float".toList vs) ∧ Holds env xs vss
  | _, _ => False

theorem Holds.congr {env env' : Env F} : ∀ {xs : List (List Char)} {vss : List (List (Option (Val F)))}, Holds env xs vss → (∀ x ∈ xs, env' x = env x) → Holds env' xs vss
  | [], [], _, _ => trivial
  | x :: xs, vs :: vss, h, he => ⟨by rw [he x (by simp)]; exact h.1, Holds.congr h.2 fun y hy => he y (by simp [hy])⟩
  | [], _ :: _, h, _ => h.elim
  | _ :: _, [], h, _ => h.elim

variable (ops : CFloat F)

theorem bind_outs : ∀ (xs : List (List Char)) (vss : List (List (Option (Val F)))) (env : Env F), xs.length = vss.length → xs.Nodup → (∀ x ∈ xs, env x = none) →
    ∃ env', bindParams ops (xs.map outParam) (vss.map fun vs => .arr "float".toList vs) env = some env' ∧ Holds env' xs vss ∧ ∀ x, x ∉ xs → env' x = env x
  | [], [], env, _, _, _ => ⟨env, bindParams_nil ops env, trivial, fun _ _ => rfl⟩
  | x :: xs, vs :: vss, env, hl, hnd, hn => by
    obtain ⟨h1, h2⟩ := List.nodup_cons.1 hnd
    obtain ⟨env', e1, e2, e3⟩ := bind_outs xs vss (env.set x (some (.array "float".toList vs))) (by simpa using hl) h2
      (fun y hy => by rw [Env.set_ne _ _ (by rintro rfl; exact h1 hy)]; exact hn y (by simp [hy]))
    refine ⟨env', ?_, ⟨by rw [e3 x h1, Env.set_same], e2⟩, ?_⟩
    · rw [List.map_cons, List.map_cons]
      unfold outParam
      rw [bindParams_ptr _ _ _ _ _ _ _ _ (hn x (by simp))]
      exact e1
    · intro y hy
      simp only [List.mem_cons, not_or] at hy
      rw [e3 y hy.2, Env.set_ne _ _ hy.1]
  | [], _ :: _, _, hl, _, _ => by simp at hl
  | _ :: _, [], _, hl, _, _ => by simp at hl

theorem args_outs (ctx : Ctx F) (env : Env F) : ∀ (xs : List (List Char)) (vss : List (List (Option (Val F)))), Holds env xs vss → (∀ x ∈ xs, isNum x = false) →
    (xs.map fun x => (⟨none, x⟩ : Arg)).mapM (evalArg ops ctx env) = some (vss.map fun vs => .arr "float".toList vs)
  | [], [], _, _ => rfl
  | x :: xs, vs :: vss, h, hn => by
    rw [List.map_cons, List.mapM_cons, evalArg_local ops (hn x (by simp)) h.1, args_outs ctx env xs vss h.2 fun y hy => hn y (by simp [hy])]
    rfl
  | [], _ :: _, h, _ => h.elim
  | _ :: _, [], h, _ => h.elim

theorem writeBack_outs (args : List Arg) : ∀ (xs : List (List Char)) (olds news : List (List (Option (Val F)))) (k : Nat) (env : Env F), Holds env xs olds → xs.length = news.length → xs.Nodup →
    (∀ i x, xs[i]? = some x → args[k + i]? = some ⟨none, x⟩) → ∃ env', writeBack env args (numbered k news) = some env' ∧ Holds env' xs news ∧ ∀ x, x ∉ xs → env' x = env x
  | [], [], [], k, env, _, _, _, _ => ⟨env, rfl, trivial, fun _ _ => rfl⟩
  | x :: xs, old :: olds, vs :: news, k, env, h, hl, hnd, ha => by
    obtain ⟨h1, h2⟩ := List.nodup_cons.1 hnd
    obtain ⟨env', e1, e2, e3⟩ := writeBack_outs args xs olds news (k + 1) (env.set x (some (.array "float".toList vs)))
      (h.2.congr fun y hy => by rw [Env.set_ne _ _ (by rintro rfl; exact h1 hy)]) (by simpa using hl) h2
      (fun i y hy => by rw [show k + 1 + i = k + (i + 1) by omega]; exact ha (i + 1) y (by simpa using hy))
    refine ⟨env', ?_, ⟨by rw [e3 x h1, Env.set_same], e2⟩, ?_⟩
    · rw [numbered, writeBack]
      have := ha 0 x rfl
      rw [Nat.add_zero] at this
      rw [this]
      simp only [h.1]
      exact e1
    · intro y hy
      simp only [List.mem_cons, not_or] at hy
      rw [e3 y hy.2, Env.set_ne _ _ hy.1]
  | [], [], _ :: _, _, _, _, hl, _, _ => by simp at hl
  | _ :: _, _ :: _, [], _, _, _, hl, _, _ => by simp at hl
  | [], _ :: _, _, _, _, h, _, _, _ => h.elim
  | _ :: _, [], _, _, _, h, _, _, _ => h.elim

theorem writes_outs : ∀ (xs : List (List Char)) (vss : List (List (Option (Val F)))) (k : Nat) (env : Env F), Holds env xs vss → writes env k (xs.map outParam) = numbered k vss
  | [], [], _, _, _ => rfl
  | x :: xs, vs :: vss, k, env, h => by
    rw [List.map_cons, writes_ptr _ _ _ _ _ _ rfl h.1, writes_outs xs vss (k + 1) env h.2]
    rfl
  | [], _ :: _, _, _, h => h.elim
  | _ :: _, [], _, _, h => h.elim

/-- The function `f(const float *x, int32_t n, float *outs…) { return lib(&model, x, n, outs…); }`. -/
def forwardF (ty f lib model x n : List Char) (outs : List (List Char)) : Func :=
  ⟨[], ty, f, ⟨true, "float".toList, true, x⟩ :: ⟨false, "int32_t".toList, false, n⟩ :: outs.map outParam,
    .ret (.call lib (⟨some '&', model⟩ :: ⟨none, x⟩ :: ⟨none, n⟩ :: outs.map fun o => ⟨none, o⟩)) .done⟩

/-- Calling it is calling the library function with the model; the output arrays are those that the library function leaves. -/
theorem forward_call (ext : List Char → List (ArgVal F) → Option (CallResult F)) (p : Prog) (fuel depth : Nat) (ty f lib model x n : List Char) (outs : List (List Char)) (hty : ∀ z : Int, -2147483648 ≤ z → z ≤ 2147483647 → conv ops ty (.int z) = some (.int z))
    (hfind : findFunc p f = some (forwardF ty f lib model x n outs)) (hflib : findFunc p lib = none) (hnames : (model :: x :: n :: outs).Nodup) (hnum : ∀ y ∈ x :: n :: outs, isNum y = false)
    (feats : List (Option (Val F))) (len : Int) (h1 : -2147483648 ≤ len) (h2 : len ≤ 2147483647) (vss : List (List (Option (Val F)))) (hl : outs.length = vss.length)
    (r : Option (Int × List (List (Option (Val F)))))
    (hext : ext lib (.ref model :: .arr "float".toList feats :: .num (.int len) :: vss.map fun vs => .arr "float".toList vs) = r.map fun q => (.int q.1, numbered 3 q.2))
    (hr : ∀ q, r = some q → -2147483648 ≤ q.1 ∧ q.1 ≤ 2147483647 ∧ q.2.length = outs.length) :
    callFunc ops ext p fuel (depth + 2) f (.arr "float".toList feats :: .num (.int len) :: vss.map fun vs => .arr "float".toList vs) = r.map fun q => (.int q.1, numbered 2 q.2) := by
  obtain ⟨m1, m2, m3, hnd⟩ : model ∉ x :: n :: outs ∧ x ∉ n :: outs ∧ n ∉ outs ∧ outs.Nodup := by
    have a := List.nodup_cons.1 hnames
    have b := List.nodup_cons.1 a.2
    have c := List.nodup_cons.1 b.2
    exact ⟨a.1, b.1, c.1, c.2⟩
  simp only [List.mem_cons, not_or] at m1 m2
  obtain ⟨env0, henv0⟩ : ∃ env0 : Env F, env0 = Env.set (Env.set (fun _ => none) x (some (.array "float".toList feats))) n (some (.scalar "int32_t".toList (.int len))) := ⟨_, rfl⟩
  have h0 : ∀ y, y ≠ x → y ≠ n → env0 y = none := by intro y hy1 hy2; rw [henv0, Env.set_ne _ _ hy2, Env.set_ne _ _ hy1]
  obtain ⟨env, hb, hH, hE⟩ := bind_outs ops outs vss env0 hl hnd (fun y hy => h0 y (by rintro rfl; exact m2.2 hy) (by rintro rfl; exact m3 hy))
  have hbind : bindParams ops (forwardF ty f lib model x n outs).params (.arr "float".toList feats :: .num (.int len) :: vss.map fun vs => .arr "float".toList vs) (fun _ => none) = some env := by
    show bindParams ops (⟨true, "float".toList, true, x⟩ :: ⟨false, "int32_t".toList, false, n⟩ :: outs.map outParam) _ _ = _
    rw [bindParams_ptr _ _ _ _ _ _ _ _ rfl, bindParams_num ops false "int32_t".toList n _ (.int len) (.int len) _ _ (by rw [Env.set_ne _ _ (Ne.symm m2.1)]) (conv_int32 ops (.inr rfl) _ h1 h2), ← henv0]
    exact hb
  have ax : env x = some (.array "float".toList feats) := by rw [hE x m2.2, henv0, Env.set_ne _ _ m2.1, Env.set_same]
  have an : env n = some (.scalar "int32_t".toList (.int len)) := by rw [hE n m3, henv0, Env.set_same]
  have am : env model = none := by rw [hE model m1.2.2]; exact h0 _ m1.1 m1.2.1
  have hargs : ∀ ctx : Ctx F, (⟨some '&', model⟩ :: ⟨none, x⟩ :: ⟨none, n⟩ :: outs.map fun o => (⟨none, o⟩ : Arg)).mapM (evalArg ops ctx env) =
      some (.ref model :: .arr "float".toList feats :: .num (.int len) :: vss.map fun vs => .arr "float".toList vs) := by
    intro ctx
    rw [List.mapM_cons, evalArg_ref ops am, List.mapM_cons, evalArg_local ops (hnum x (by simp)) ax, List.mapM_cons, evalArg_num ops (hnum n (by simp)) an,
      args_outs ops ctx env outs vss hH fun y hy => hnum y (by simp [hy])]
    rfl
  have hcall : callFunc ops ext p fuel (depth + 1) lib (.ref model :: .arr "float".toList feats :: .num (.int len) :: vss.map fun vs => .arr "float".toList vs) =
      r.map fun q => (.int q.1, numbered 3 q.2) := by rw [callFunc, hflib]; exact hext
  cases r with
  | none =>
    refine callFunc_none ops ext p fuel (depth + 1) _ _ _ _ hfind hbind ?_
    show exec ops _ fuel (.ret _ _) _ = none
    rw [exec, evalTop_call_none ops _ _ _ _ _ (hargs _) hcall]
    rfl
  | some q =>
    obtain ⟨z, news⟩ := q
    obtain ⟨z1, z2, hnl⟩ := hr _ rfl
    simp only at z1 z2 hnl
    rw [Option.map_some] at hcall
    obtain ⟨env', w1, w2, w3⟩ := writeBack_outs (⟨some '&', model⟩ :: ⟨none, x⟩ :: ⟨none, n⟩ :: outs.map fun o => (⟨none, o⟩ : Arg)) outs vss news 3 env hH hnl.symm hnd
      (fun i y hy => by rw [Nat.add_comm]; simp [hy])
    have htop : evalTop ops { globals := globalsOf ops p, call := callFunc ops ext p fuel (depth + 1) } env (.call lib (⟨some '&', model⟩ :: ⟨none, x⟩ :: ⟨none, n⟩ :: outs.map fun o => ⟨none, o⟩)) =
        some (.int z, env') := by
      rw [evalTop, hargs]
      simp only [hcall, w1, Option.map_some]
    have hex : exec ops { globals := globalsOf ops p, call := callFunc ops ext p fuel (depth + 1) } fuel (forwardF ty f lib model x n outs).body env = some (.returned (.int z) env') := by
      show exec ops _ fuel (.ret _ _) _ = _
      rw [exec, htop]
      rfl
    rw [callFunc_eq ops ext p fuel (depth + 1) _ _ _ _ _ (.int z) (.int z) hfind hbind hex (hty z z1 z2)]
    show some (_, writes env' 0 (⟨true, "float".toList, true, x⟩ :: ⟨false, "int32_t".toList, false, n⟩ :: outs.map outParam)) = _
    rw [writes_skip _ _ _ _ rfl, writes_skip _ _ _ _ rfl, writes_outs outs news _ env' w2]
    rfl

end Emlearn.MiniC
