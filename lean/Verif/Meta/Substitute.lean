/-
Model of the metafunctions behind `make_recursive_variant`: `substitute` (detail/substitute.hpp and recursive_variant.hpp
48-129), `enable_recursive` (detail/enable_recursive.hpp 50-96), and the type lists of a recursive variant (variant.hpp
1081-1127).

C++ types are trees. The partial specialisations of `substitute` become the cases of a function; where two match, the case
stands for the more specialised one. The `Arity` parameter is taken to be absent, as for conforming compilers
(`BOOST_MPL_AUX_LAMBDA_ARITY_PARAM` expands to nothing).
-/

namespace BVariant

/-- cv-qualifiers (The language.) -/
structure Cv where
  const : Bool := false
  volatile : Bool := false
  deriving DecidableEq, Repr

/-- Both qualifiers. (The language; the partial specialisations at substitute.hpp 54-97.) -/
def Cv.join (q r : Cv) : Cv := ⟨q.const || r.const, q.volatile || r.volatile⟩

/-- How a `boost::variant` is specified: `variant<T0, TN...>`, `variant<recursive_flag<T0>, TN...>` or
`variant<over_sequence<Types>>`. -/
inductive VariantForm
  | plain
  | flag
  | seq
  deriving DecidableEq, Repr

/-- What a type is made by. (The forms that substitute.hpp 45-161 distinguishes.) -/
inductive TyHead
  /-- a type that is not made from others -/
  | base (n : Nat)
  /-- `boost::recursive_variant_` -/
  | tag
  | ptr
  | lref
  | rref
  | arr (n : Nat)
  /-- function: the result and the parameters; `other` if it is `noexcept`, or has C-style variadic arguments -/
  | fn (other : Bool)
  /-- pointer to member of a class -/
  | memptr (cls : Nat)
  /-- `F<Ts...>` of a class template with type parameters only -/
  | tmpl (f : Nat)
  /-- of a class template that has other parameters too; only the type arguments are listed -/
  | tmplN (f : Nat) (vals : List Nat)
  /-- `boost::recursive_wrapper<T>`: a class template as well -/
  | wrapper
  | variant (f : VariantForm)
  deriving DecidableEq, Repr

mutual
/-- A type expression. Qualifiers of references and functions are never present, those of an array are with its elements.
(The language; the argument of substitute.hpp 45-161.) -/
inductive CTy
  | mk (q : Cv) (h : TyHead) (as : CTys)
/-- The types a type is made from. For `variant<recursive_flag<T0>, TN...>` they are `T0, TN...`; for
`variant<over_sequence<Types>>` the elements of `Types` (a sequence is identified with its elements). -/
inductive CTys
  | nil
  | cons (t : CTy) (ts : CTys)
end

deriving instance DecidableEq for CTy, CTys
deriving instance Repr for CTy, CTys

/-- The elements of a list of types. (Device of the model.) -/
def CTys.toList : CTys → List CTy
  | .nil => []
  | .cons t ts => t :: ts.toList

/-- A list of types. (Device of the model.) -/
def CTys.ofList : List CTy → CTys
  | [] => .nil
  | t :: ts => .cons t (CTys.ofList ts)

/-- The qualifiers. (The language.) -/
def CTy.cv : CTy → Cv
  | .mk q _ _ => q

/-- What the type is made by. (The language.) -/
def CTy.head : CTy → TyHead
  | .mk _ h _ => h

/-- What the type is made from. (The language.) -/
def CTy.args : CTy → CTys
  | .mk _ _ as => as

/-- `CV_ T`, for a type that is neither an array, a function nor a reference. (The language; substitute.hpp 54-97.) -/
def CTy.addCv (t : CTy) (q : Cv) : CTy := .mk (t.cv.join q) t.head t.args

mutual
/-- `substitute`, with `D` for `Dest`. The flag `fp` says that `T` is what a pointer without qualifiers points
to; it makes `T*` match `R (*)(A...)` if `T` is a function. The specialisations are at substitute.hpp 45-161 and
recursive_variant.hpp 48-129; the lines are given beside the cases. -/
def CTy.subst (D : CTy) (fp : Bool) : CTy → CTy
  | .mk q h as =>
    match h with
    -- substitute.hpp 54-72: the tag with any qualifiers
    | .tag =>
      match as with
      | .nil => D.addCv q
      | as => .mk q .tag as
    -- 77-97: `T * CV_`
    | .ptr => .mk q .ptr (as.subst D (q = {}))
    -- 141-161: `R (*)(A...)`; other functions are left to the primary template
    | .fn other => if fp && !other then .mk q (.fn other) (as.subst D false) else .mk q (.fn other) as
    -- 102-113: `T &`
    | .lref => .mk q .lref (as.subst D false)
    -- 119-136: `F<Ts...>`, which has no qualifiers
    | .tmpl f => if q = {} then .mk q (.tmpl f) (as.subst D false) else .mk q (.tmpl f) as
    | .wrapper => if q = {} then .mk q .wrapper (as.subst D false) else .mk q .wrapper as
    -- recursive_variant.hpp 48-67
    | .variant .flag => .mk q (.variant .flag) as
    -- 69-103
    | .variant .seq =>
      if q = {} then
        if as = as.subst D false then .mk q (.variant .seq) as else .mk q (.variant .seq) (as.subst D false)
      else .mk q (.variant .seq) as
    -- 105-129
    | .variant .plain => if q = {} then .mk q (.variant .plain) (as.subst D false) else .mk q (.variant .plain) as
    -- substitute.hpp 45-48: the primary template
    | h => .mk q h as
/-- `substitute` for each element of a list, substitute.hpp 119-161. -/
def CTys.subst (D : CTy) (fp : Bool) : CTys → CTys
  | .nil => .nil
  | .cons t ts => .cons (CTy.subst D fp t) (CTys.subst D fp ts)
end

/-- `substitute<T, Dest, recursive_variant_>::type` (substitute.hpp 45-161, substitute_fwd.hpp 32-38.) -/
def CTy.substitute (D t : CTy) : CTy := CTy.subst D false t

/-- `is_pointer`: with any qualifiers; not for pointers to members. (The language; used at enable_recursive.hpp 70-78.) -/
def CTy.isPointer (t : CTy) : Bool := t.head = .ptr

/-- `is_reference` (The language; used at enable_recursive.hpp 70-78.) -/
def CTy.isReference (t : CTy) : Bool := t.head = .lref || t.head = .rref

/-- `recursive_wrapper<T>` (recursive_wrapper.hpp 33; used at enable_recursive.hpp 77.) -/
def CTy.wrap (t : CTy) : CTy := .mk {} .wrapper (.cons t .nil)

/-- `enable_recursive<T, RecursiveVariant, NoWrapper>`, enable_recursive.hpp 50-80. -/
def CTy.enableRecursive (D : CTy) (noWrapper : Bool) (t : CTy) : CTy :=
  let t' := CTy.substitute D t
  if noWrapper then t'
  else if t' = t || t'.isReference || t'.isPointer then t' else t'.wrap

/-- `unwrap_recursive`, recursive_wrapper_fwd.hpp 104-125. -/
def CTy.unwrap : CTy → CTy
  | .mk ⟨false, false⟩ .wrapper (.cons t .nil) => t
  | t => t

/-- `make_recursive_variant<Ts...>::type`, recursive_variant.hpp 138-148. -/
def makeRecursiveVariant (ts : CTys) : CTy := .mk {} (.variant .flag) ts

/-- `recursive_enabled_types` of a variant, variant.hpp 1113-1122: with the variant itself for the tag if it is recursive
(1081-1084). -/
def CTy.enabledTypes (v : CTy) : List CTy :=
  match v.head with
  | .variant .flag => v.args.toList.map (CTy.enableRecursive v false)
  | _ => v.args.toList

/-- `types` of a variant, variant.hpp 1124-1127. -/
def CTy.types (v : CTy) : List CTy := v.enabledTypes.map CTy.unwrap

/-- `mpl::insert_range<mpl::list<>, mpl::end<mpl::list<>>::type, Types>::type`: the elements of `Types` are visited from the last to the first and put at the front
of a list that is empty at first; `r` is the list so far. (MPL's `reverse_copy` with a `front_inserter`, used at variant.hpp 2276-2280.) -/
def CTys.copyOnto (r : CTys) : CTys → CTys
  | .nil => r
  | .cons t ts => .cons t (CTys.copyOnto r ts)

/-- `make_variant_over<Types>::type`, variant.hpp 2269-2288 and detail/over_sequence.hpp 30-34. -/
def makeVariantOver (ts : CTys) : CTy := .mk {} (.variant .seq) (CTys.copyOnto .nil ts)

/-- `variant<T0, TN...>`, variant.hpp 1071-1075; `specified_types` is then made by `make_variant_list`, detail/make_variant_list.hpp 35-39. -/
def makeVariant (ts : CTys) : CTy := .mk {} (.variant .plain) ts

end BVariant
