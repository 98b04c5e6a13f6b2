import sys
sys.path.insert(0,'/tmp/gen'); from reg import reg
P=r'''
p("C87","What is reported about a build and about a decompiled file","After every write the reported size is the size of the file; the reported number of sprites is that of all resources of the different resource actions, with those taken from the cache and those that cannot be cached counted as such; and the file holds as many real sprites and sounds as that number less the reported duplicates. The decompiler prints a line for exactly the action numbers it met, with how many there were and the sum of their bytes. For a written file these are the actions that were written (those of one byte excepted), and all lines together give the size of the file less the header, the end marks and the one-byte actions - but four bytes too many for each action or reference, so that the sum can exceed the file.","every list of actions and resources, every hash function, every way the data are got; every file read","the counters are updated in loops over data of any number and in branches that depend on hashes; the tests print them at most",["grf/grf.py:BaseNewGRF._do_write","grf/grf.py:WriteContext.print_report","grf/decompile.py:ParsingContext.count_action","grf/decompile.py:ParsingContext.count_real_sprite","grf/decompile.py:read_pseudo_sprite"])
'''
M=r'''
c("C87","proved",["Report.report_true","Report.stats_exact","Report.stats_written","Report.stats_total","Report.stats_more_than_file"],"times and the texts around the numbers are not modelled")
'''
reg(P,M,
 rows=[['C87','`Model.Report`: the counters beside the loop of `Model.Container`, the statistics beside the context of `Model.Extract`','loop invariant linking counters, set of actions done and real sprites in the file; the real-sprite section is told apart by its bytes, so the invariant meets that of the container; sums over the dictionary of statistics']],
 more=['| grf.py report counters, decompile.py statistics | Report | C87 |'],
 dev=['* The statistics of the decompiler count four bytes too many for each pseudo sprite (`l + size_bytes * 2 + 1`): `stats_total`, `stats_more_than_file`.'],
 imports=['Verif.Model.Report','Verif.Props.Report'])
