import sys
sys.path.insert(0,'/tmp/gen'); from reg import reg
P=r'''
p("C86","Writing again gives the same file","After a write the action objects keep the ids and features that were filled in. Writing the same list of objects again, any number of times, gives the same actions in the same order with the same ids and features; this is so whichever of the objects are kept (with what they remember) and whichever are made again by generators (without). Ids the user set himself may be among them. Two conditions are needed: the objects refer to each other as before (an object that brings a remembered id into another file can share it with a new object of the same action), and nobody uses raw Ref numbers (a remembered id can be one that a Ref names, which changes later ids).","every reference graph and user-set ids for which the first write succeeds; every choice of which objects remember; any number of writes","the second write starts from another state, so it takes every decision of id assignment from different data; tests write each object once",["grf/grf.py:BaseNewGRF.resolve_refs","grf/actions.py:ReferenceableAction"])
'''
M=r'''
c("C86","proved",["write_again","write_twice","write_repeatedly","remembered_ids_clash","raw_refs_change_the_second_write"],"the two conditions are shown necessary by the last two theorems")
'''
reg(P,M,
 rows=[['C86','`Model.Refs` with two object stores: before the first write and before a later one','simulation between the two traversals: the same free ids (ids in the pool that are not reserved) although pool and reserved set differ; every id met in the second traversal is the final one of the first because assigned ids never change']],
 more=[],
 dev=['* An action object used in two files brings its id from the first into the second, where a new object can get the same id (`remembered_ids_clash`).'],
 imports=['Verif.Props.RefsAgain'])
