import sys
B='/verif/lean/Verif/Model/'
R={'Syntax.lean':[('(`grf/parser.py:592-637`)','(`grf/parser.py:585-621`)'),('`grf/parser.py:525`), a number, newlines (`528-531`)','`grf/parser.py:524`), a number, newlines (`527-530`)'),('`534-536`','`533-535`'),
('parser.py:541-551','parser.py:540-550'),('parser.py:592-648','parser.py:584-634'),('parser.py:657-664`, `p_expression_assign_variable`, `667-669`','parser.py:644-651`, `p_expression_assign_variable`, `654-656`'),
('parser.py:146-147`, `228`, `267`','parser.py:146-147`, `226-228`, `263-264`'),('parser.py:682-695','parser.py:670-682'),('(`698-759`)','(`685-744`)'),('parser.py:309-320','parser.py:311-321'),('(`309-320`)','(`311-321`)'),
('parser.py:650-664','parser.py:637-651'),('parser.py:658-664','parser.py:646-651'),('parser.py:582-590`, `650-680`, `762-769`','parser.py:574-581`, `637-667`, `747-754`'),('parser.py:554-574','parser.py:553-571'),
('(`167`)','(`166`)'),('parser.py:322-329','parser.py:323-330'),('parser.py:175-177','parser.py:174-175'),('parser.py:157-177`, `256-257`, `277-284`, `322-331`, `373-376`, `406-407`, `433-434`','parser.py:157-176`, `254-255`, `275-281`, `323-330`, `372-375`, `403-404`, `433-434`'),
('parser.py:507-521','parser.py:507-520'),('parser.py:58-108`, `112-467`','parser.py:58-106`, `109-467`')],
'Decode.lean':[('parser.py:622-629','parser.py:625-631'),('`304-306` (Var), `333-335` (GenericVar), `393-395` (Temp)','`305-307` (Var), `332-334` (GenericVar), `392-394` (Temp)'),('left alone (`144`)','left alone (`143-144`)'),('parser.py:112-440','parser.py:109-440'),('parser.py:205-220','parser.py:205-219')],
'Ast.lean':[('parser.py:112-467','parser.py:109-467')],
'Compile.lean':[('`grf/parser.py:146-147,268` `const_eval`','`grf/parser.py:146-147,226-228,263-264` `const_eval`'),('parser.py:261-262','parser.py:258-259'),('`260-264` (Value), `285-304` (Var)','`257-261` (Value), `283-303` (Var)'),("def FULL : Int","/-- The default of `and_mask`, `0xffffffff` (`grf/parser.py:178`). -/\ndef FULL : Int")]}
for f,l in R.items():
    s=open(B+f).read()
    for a,b in l:
        if a not in s: print('missing',f,a)
        s=s.replace(a,b)
    if len(sys.argv)>1: open(B+f,'w').write(s)
