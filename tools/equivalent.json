{"A6b38d3bb": "eqS compares only when the interval is a single point, so either bound gives the same answer"}
