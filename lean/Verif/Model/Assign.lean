import Verif.Model.Resources

/-!
# Copy assignment of the resources

Neither class declares `operator=`.  The copy constructor they declare as deleted
(/repo/sources/include/utils/memory/monotonic_buffer_resource.h 17,
/repo/sources/include/utils/memory/simple_resource.h 178) and the destructors do not suppress the implicit
copy assignment operator, and every member can be assigned, so `a = b` compiles and assigns member by
member.  The base class (memory/memory.h 217-218) has two pointers to member functions, which are the
same for all objects of one class.
-/

namespace Utils.Res

open Utils.SR

/-- A `monotonic_buffer_resource` with all its members, monotonic_buffer_resource.h 95-98. -/
structure MonoObj (σ : Type) where
  res : Mono
  upstream : Option (Upstream σ)

/-- The implicit `operator=` of `monotonic_buffer_resource`: the value of the target afterwards. -/
def MonoObj.assign {σ : Type} (_target source : MonoObj σ) : MonoObj σ where
  res := { data := source.res.data, size := source.res.size, next := source.res.next }
  upstream := source.upstream

end Utils.Res

namespace Utils.SR

/-- A `simple_resource` with all its members, simple_resource.h 549-555. -/
structure SimpleObj (σ : Type) where
  st : State
  upstream : Option (Upstream σ)

/-- The implicit `operator=` of `simple_resource`: the value of the target afterwards. -/
def SimpleObj.assign {σ : Type} (_target source : SimpleObj σ) : SimpleObj σ where
  st := {
    data := source.st.data
    blockCount := source.st.blockCount
    prev := source.st.prev
    next := source.st.next
    inUse := source.st.inUse
    freeCount := source.st.freeCount
    busyCount := source.st.busyCount }
  upstream := source.upstream

end Utils.SR
